import Verif.Model.Bindings
/-!
# C102: the bindings generated by bpf2go
-/
namespace Ebpf.Bindings
open BindingsSpec

/-! ## Identifiers -/

theorem upper_letter (c : Char) (h : isLetter c = true) : isUpper (upper c) = true := by
  unfold upper Char.toUpper
  split
  · rename_i hc
    simp only [isUpper, Bool.and_eq_true, decide_eq_true_eq]
    simp only [UInt32.le_iff_toNat_le] at hc
    constructor
    · simp only [Char.le_def, UInt32.le_iff_toNat_le]
      simp [UInt32.toNat_add] at hc ⊢
      omega
    · simp only [Char.le_def, UInt32.le_iff_toNat_le]
      simp [UInt32.toNat_add] at hc ⊢
      omega
  · rename_i hc
    simp only [isLetter, Bool.or_eq_true] at h
    rcases h with h | h
    · exact h
    · simp only [isLower, Bool.and_eq_true, decide_eq_true_eq] at h
      exact absurd ⟨h.1, h.2⟩ hc

theorem upper_isLetter (c : Char) (h : isLetter c = true) : isLetter (upper c) = true := by
  simp [isLetter, upper_letter c h]

theorem identLoop_chars (s : Name) (p : Option Char) : ∀ d ∈ identLoop p s, isLetter d = true ∨ isDigit d = true ∨ d = '_' := by
  induction s generalizing p with
  | nil => simp [identLoop]
  | cons r s ih =>
    intro d hd
    unfold identLoop at hd
    split at hd
    · rename_i q c hq
      rcases List.mem_cons.mp hd with rfl | hd
      · unfold identStep at hq
        split at hq
        · rename_i hr
          cases hq
          left
          split
          · exact upper_isLetter r hr
          · exact hr
        · split at hq
          · rename_i hr
            split at hq
            · cases hq
            · split at hq
              · cases hq
              · cases hq; exact .inr (.inr hr)
          · split at hq
            · rename_i hr; cases hq; exact .inr (.inl hr)
            · cases hq
      · exact ih q d hd
    · exact ih _ d hd

theorem underscore_not : isLetter '_' = false ∧ isDigit '_' = false := by decide

/-- **Identifiers.** The Go name of a C name is an exported identifier exactly if the first letter or digit of the C name is a letter; it is empty exactly if
there is none. -/
theorem identifier_exported (s : Name) :
    (Exported (identifier s) ↔ ∃ c, s.find? (fun c => isLetter c || isDigit c) = some c ∧ isLetter c = true) ∧
    (identifier s = [] ↔ ∀ c ∈ s, isLetter c = false ∧ isDigit c = false) := by
  unfold identifier
  induction s with
  | nil => simp [identLoop, Exported]
  | cons r s ih =>
    by_cases hl : isLetter r = true
    · have hs : identStep none r = (some (upper r), some (upper r)) := by simp [identStep, hl]
      unfold identLoop
      rw [hs]
      dsimp only
      refine ⟨?_, by simp [hl]⟩
      simp only [List.find?_cons, hl, Bool.true_or, Option.some.injEq, exists_eq_left', iff_true]
      exact ⟨upper_letter r hl, identLoop_chars s _⟩
    · have hl : isLetter r = false := by simpa using hl
      by_cases hd : isDigit r = true
      · have hne : r ≠ '_' := by intro e; rw [e] at hd; exact absurd hd (by decide)
        have hs : identStep none r = (some r, some r) := by simp [identStep, hl, hd, hne]
        unfold identLoop
        rw [hs]
        dsimp only
        refine ⟨?_, by simp [hd]⟩
        simp only [List.find?_cons, hl, hd, Bool.false_or, Option.some.injEq, exists_eq_left', Bool.false_eq_true, iff_false]
        rintro ⟨h1, _⟩
        simp [isLetter, h1] at hl
      · have hd : isDigit r = false := by simpa using hd
        have hs : identStep none r = (none, none) := by
          by_cases hu : r = '_'
          · simp [identStep, hu, underscore_not]
          · simp [identStep, hl, hd, hu]
        unfold identLoop
        rw [hs]
        dsimp only
        simp only [List.find?_cons, hl, hd, Bool.or_self, List.mem_cons, forall_eq_or_imp, and_self, true_and]
        exact ih

/-! ## Types to declare -/

theorem composite_iff (t : Ty) : Composite t ↔ ∃ i n, underlying t = .comp i n := by
  induction t with
  | comp i n => exact ⟨fun _ => ⟨i, n, rfl⟩, fun _ => .comp i n⟩
  | array t => exact ⟨fun h => (by cases h), fun ⟨i, n, h⟩ => by cases h⟩
  | qual t ih =>
    constructor
    · intro h; cases h with | qual _ h => exact ih.mp h
    · intro h; exact .qual _ (ih.mpr h)
  | typedef i n t ih =>
    constructor
    · intro h; cases h with | typedef _ _ _ h => exact ih.mp h
    · intro h; exact .typedef _ _ _ (ih.mpr h)
  | other n => exact ⟨fun h => (by cases h), fun ⟨i, n, h⟩ => by cases h⟩

theorem underlying_cases (t : Ty) : (∃ i n, underlying t = .comp i n) ∨ (∃ u, underlying t = .array u) ∨ ∃ n, underlying t = .other n := by
  induction t with
  | comp i n => exact .inl ⟨i, n, rfl⟩
  | array t => exact .inr (.inl ⟨t, rfl⟩)
  | qual t ih => exact ih
  | typedef i n t ih => exact ih
  | other n => exact .inr (.inr ⟨n, rfl⟩)

theorem select_comp (t : Ty) (i : Nat) (n : Name) (h : underlying t = .comp i n) : selectType t = some t := by
  rw [selectType]
  split
  · rfl
  · rename_i h'; rw [h] at h'; cases h'
  · rename_i h' _; exact absurd h (h' i n)

theorem select_array (t u : Ty) (h : underlying t = .array u) : selectType t = selectType u := by
  rw [selectType]
  split
  · rename_i h'; rw [h] at h'; cases h'
  · rename_i h'; rw [h] at h'; cases h'; rfl
  · rename_i h'; exact absurd h (h' u)

theorem select_other (t : Ty) (n : Name) (h : underlying t = .other n) : selectType t = none := by
  rw [selectType]
  split
  · rename_i h'; rw [h] at h'; cases h'
  · rename_i h'; rw [h] at h'; cases h'
  · rfl

theorem typeName_eq (t : Ty) : typeName t = nameOf t := by cases t <;> rfl

/-- addType looks at exactly the types that have to be declared. -/
theorem select_declares (t d : Ty) :
    ((selectType t).map qualified = some d ∧ typeName d ≠ []) ↔ Declares t d := by
  induction t with
  | comp i n =>
    rw [select_comp _ i n rfl]
    constructor
    · rintro ⟨h, hn⟩; cases h; exact .comp i n hn
    · intro h; cases h with | comp _ _ hn => exact ⟨rfl, hn⟩
  | array t ih =>
    rw [select_array _ t rfl, ih]
    constructor
    · intro h; exact .array _ _ h
    · intro h; cases h with | array _ _ h => exact h
  | qual t ih =>
    have : (selectType (.qual t)).map qualified = (selectType t).map qualified := by
      rcases underlying_cases t with ⟨i, n, h⟩ | ⟨u, h⟩ | ⟨n, h⟩
      · rw [select_comp t i n h, select_comp (.qual t) i n h]; rfl
      · rw [select_array t u h, select_array (.qual t) u h]
      · rw [select_other t n h, select_other (.qual t) n h]
    rw [this, ih]
    constructor
    · intro h; exact .qual _ _ h
    · intro h; cases h with | qual _ _ h => exact h
  | typedef i n t ih =>
    by_cases hc : Composite t
    · obtain ⟨i', n', h⟩ := (composite_iff t).mp hc
      rw [select_comp (.typedef i n t) i' n' h]
      constructor
      · rintro ⟨h, hn⟩; cases h; exact .typedef i n t hn hc
      · intro h
        cases h with
        | typedef _ _ _ hn _ => exact ⟨rfl, hn⟩
        | through _ _ _ _ hn _ => exact absurd hc hn
    · have : selectType (.typedef i n t) = selectType t := by
        rcases underlying_cases t with ⟨i', n', h⟩ | ⟨u, h⟩ | ⟨n', h⟩
        · exact absurd ((composite_iff t).mpr ⟨i', n', h⟩) hc
        · rw [select_array t u h, select_array (.typedef i n t) u h]
        · rw [select_other t n' h, select_other (.typedef i n t) n' h]
      rw [this, ih]
      constructor
      · intro h; exact .through _ _ _ _ hc h
      · intro h
        cases h with
        | typedef _ _ _ _ h => exact absurd h hc
        | through _ _ _ _ _ h => exact h
  | other n =>
    rw [select_other _ n rfl]
    constructor
    · rintro ⟨h, _⟩; cases h
    · intro h; cases h

theorem addType_spec (ts : List Ty) (t : Ty) :
    (∀ d, Declares t d → (∃ d' ∈ ts, nameOf d' = nameOf d) → addType ts t = ts) ∧
    (∀ d, Declares t d → (∀ d' ∈ ts, nameOf d' ≠ nameOf d) → addType ts t = ts ++ [d]) ∧
    ((∀ d, ¬ Declares t d) → addType ts t = ts) := by
  refine ⟨?_, ?_, ?_⟩
  · intro d hd ⟨d', hm, he⟩
    obtain ⟨h1, h2⟩ := (select_declares t d).mpr hd
    obtain ⟨s, hs, hq⟩ := Option.map_eq_some_iff.mp h1
    unfold addType
    rw [hs]
    dsimp only
    rw [hq, if_neg h2, if_pos]
    rw [List.any_eq_true]
    exact ⟨d', hm, by simpa [typeName_eq] using he⟩
  · intro d hd hn
    obtain ⟨h1, h2⟩ := (select_declares t d).mpr hd
    obtain ⟨s, hs, hq⟩ := Option.map_eq_some_iff.mp h1
    unfold addType
    rw [hs]
    dsimp only
    rw [hq, if_neg h2, if_neg]
    rw [List.any_eq_true]
    rintro ⟨d', hm, he⟩
    exact hn d' hm (by simpa [typeName_eq] using he)
  · intro hn
    unfold addType
    cases hs : selectType t with
    | none => rfl
    | some s =>
      dsimp only
      split
      · rfl
      · rename_i hne
        exact absurd ((select_declares t (qualified s)).mp ⟨by rw [hs]; rfl, hne⟩) (hn _)

/-- Declares is a function. -/
theorem declares_fun (t d d' : Ty) (h : Declares t d) (h' : Declares t d') : d = d' := by
  have h1 := ((select_declares t d).mpr h).1
  have h2 := ((select_declares t d').mpr h').1
  rw [h1] at h2
  exact Option.some.inj h2

theorem fold_addType (l : List Ty) (acc : List Ty)
    (hu : ∀ t ∈ l, ∀ d, Declares t d → (∀ t' ∈ l, ∀ d', Declares t' d' → nameOf d = nameOf d' → d = d') ∧
      ∀ d' ∈ acc, nameOf d = nameOf d' → d = d')
    (ha : acc.Pairwise (fun a b => nameOf a ≠ nameOf b)) :
    (l.foldl addType acc).Pairwise (fun a b => nameOf a ≠ nameOf b) ∧
    ∀ d, d ∈ l.foldl addType acc ↔ d ∈ acc ∨ ∃ t ∈ l, Declares t d := by
  induction l generalizing acc with
  | nil => exact ⟨ha, by simp⟩
  | cons t l ih =>
    rw [List.foldl_cons]
    obtain ⟨s1, s2, s3⟩ := addType_spec acc t
    by_cases hd : ∃ d, Declares t d
    · obtain ⟨d, hd⟩ := hd
      obtain ⟨u1, u2⟩ := hu t (by simp) d hd
      by_cases hx : ∃ d' ∈ acc, nameOf d' = nameOf d
      · rw [s1 d hd hx]
        obtain ⟨d', hm, he⟩ := hx
        have e := u2 d' hm he.symm
        subst e
        obtain ⟨i1, i2⟩ := ih acc (fun t' ht' d' hd' =>
          ⟨fun t'' ht'' => (hu t' (by simp [ht']) d' hd').1 t'' (by simp [ht'']), (hu t' (by simp [ht']) d' hd').2⟩) ha
        refine ⟨i1, ?_⟩
        intro x
        rw [i2]
        simp only [List.mem_cons, exists_eq_or_imp]
        constructor
        · rintro (h | h)
          · exact .inl h
          · exact .inr (.inr h)
        · rintro (h | h | h)
          · exact .inl h
          · exact .inl (declares_fun t _ _ hd h ▸ hm)
          · exact .inr h
      · have hx' : ∀ d' ∈ acc, nameOf d' ≠ nameOf d := fun d' hm e => hx ⟨d', hm, e⟩
        rw [s2 d hd hx']
        obtain ⟨i1, i2⟩ := ih (acc ++ [d]) (by
          intro t' ht' d' hd'
          obtain ⟨v1, v2⟩ := hu t' (by simp [ht']) d' hd'
          refine ⟨fun t'' ht'' => v1 t'' (by simp [ht'']), ?_⟩
          intro d'' hm
          rcases List.mem_append.mp hm with hm | hm
          · exact v2 d'' hm
          · have := List.mem_singleton.mp hm
            subst this
            exact v1 t (by simp) d'' hd) (by
          rw [List.pairwise_append]
          exact ⟨ha, List.pairwise_singleton _ _, fun a hm b hb => by rw [List.mem_singleton.mp hb]; exact hx' a hm⟩)
        refine ⟨i1, ?_⟩
        intro x
        rw [i2]
        simp only [List.mem_append, List.mem_cons, List.not_mem_nil, or_false, exists_eq_or_imp, or_assoc]
        constructor
        · rintro (h | h | h)
          · exact .inl h
          · subst h; exact .inr (.inl hd)
          · exact .inr (.inr h)
        · rintro (h | h | h)
          · exact .inl h
          · exact .inr (.inl (declares_fun t _ _ h hd))
          · exact .inr (.inr h)
    · have hd' : ∀ d, ¬ Declares t d := fun d h => hd ⟨d, h⟩
      rw [s3 hd']
      obtain ⟨i1, i2⟩ := ih acc (fun t' ht' d' hd' =>
          ⟨fun t'' ht'' => (hu t' (by simp [ht']) d' hd').1 t'' (by simp [ht'']), (hu t' (by simp [ht']) d' hd').2⟩) ha
      refine ⟨i1, ?_⟩
      intro x
      rw [i2]
      simp only [List.mem_cons, exists_eq_or_imp]
      constructor
      · rintro (h | h)
        · exact .inl h
        · exact .inr (.inr h)
      · rintro (h | h | h)
        · exact .inl h
        · exact absurd h (hd' _)
        · exact .inr h

/-! ## Sorting -/

theorem insertBy_perm {α : Type} (le : Name → Name → Bool) (key : α → Name) (x : α) (l : List α) : (insertBy le key x l).Perm (x :: l) := by
  induction l with
  | nil => exact .refl _
  | cons y ys ih =>
    unfold insertBy
    split
    · exact (ih.cons y).trans (.swap x y ys)
    · exact .refl _

theorem insertBy_sorted {α : Type} (le : Name → Name → Bool) (ho : Order le) (key : α → Name) (x : α) (l : List α)
    (h : l.Pairwise (fun a b => le (key a) (key b) = true)) :
    (insertBy le key x l).Pairwise (fun a b => le (key a) (key b) = true) := by
  induction l with
  | nil => exact List.pairwise_singleton _ _
  | cons y ys ih =>
    rw [List.pairwise_cons] at h
    unfold insertBy
    split
    · rename_i hle
      refine List.pairwise_cons.mpr ⟨?_, ih h.2⟩
      intro z hz
      rcases List.mem_cons.mp ((insertBy_perm le key x ys).mem_iff.mp hz) with rfl | hz
      · exact hle
      · exact h.1 z hz
    · rename_i hle
      have hxy : le (key x) (key y) = true := (ho.total _ _).resolve_right hle
      refine List.pairwise_cons.mpr ⟨?_, List.pairwise_cons.mpr h⟩
      intro z hz
      rcases List.mem_cons.mp hz with rfl | hz
      · exact hxy
      · exact ho.trans _ _ _ hxy (h.1 z hz)

theorem sortBy_spec {α : Type} (le : Name → Name → Bool) (ho : Order le) (key : α → Name) (l : List α) :
    (sortBy le key l).Perm l ∧ (sortBy le key l).Pairwise (fun a b => le (key a) (key b) = true) := by
  unfold sortBy
  have : ∀ (l acc : List α), acc.Pairwise (fun a b => le (key a) (key b) = true) →
      (l.foldl (fun acc x => insertBy le key x acc) acc).Perm (acc ++ l) ∧
      (l.foldl (fun acc x => insertBy le key x acc) acc).Pairwise (fun a b => le (key a) (key b) = true) := by
    intro l
    induction l with
    | nil => intro acc h; simp [h]
    | cons x l ih =>
      intro acc h
      obtain ⟨i1, i2⟩ := ih (insertBy le key x acc) (insertBy_sorted le ho key x acc h)
      refine ⟨?_, i2⟩
      rw [List.foldl_cons]
      refine i1.trans ?_
      refine ((insertBy_perm le key x acc).append_right l).trans ?_
      exact (List.perm_middle (l₁ := acc) (a := x) (l₂ := l)).symm
  obtain ⟨h1, h2⟩ := this l [] List.Pairwise.nil
  exact ⟨by simpa using h1, h2⟩

/-- There is only one way of sorting if no two keys are equal. -/
theorem sorted_unique {α : Type} (le : Name → Name → Bool) (ho : Order le) (key : α → Name) (l l' : List α) (hp : l.Perm l')
    (hk : l.Pairwise (fun a b => key a ≠ key b)) (h : l.Pairwise (fun a b => le (key a) (key b) = true))
    (h' : l'.Pairwise (fun a b => le (key a) (key b) = true)) : l = l' := by
  induction l generalizing l' with
  | nil => exact (List.Perm.eq_nil hp.symm).symm
  | cons x xs ih =>
    cases l' with
    | nil => exact absurd hp.eq_nil (by simp)
    | cons y ys =>
      rw [List.pairwise_cons] at h h' hk
      have hxy : x = y := by
        rcases List.mem_cons.mp (hp.mem_iff.mp (List.mem_cons_self ..)) with e | hx
        · exact e
        · rcases List.mem_cons.mp (hp.symm.mem_iff.mp (List.mem_cons_self ..)) with e | hy
          · exact e.symm
          · exact absurd (ho.antisymm _ _ (h.1 y hy) (h'.1 x hx)) (hk.1 y hy)
      subst hxy
      rw [ih ys (hp.cons_inv) hk.2 h.2 h'.2]

/-! ## The types that are collected -/

/-- What has to be declared for maps and variables: the types of keys and values that have a name, and the types of variables. -/
def Wanted (maps : List MapTypes) (vars : List Ty) (d : Ty) : Prop :=
  (∃ m ∈ maps, ∃ t, (m.key = some t ∨ m.value = some t) ∧ nameOf t ≠ [] ∧ Declares t d) ∨ ∃ t ∈ vars, Declares t d

/-- The types looked at, in order. -/
def sources (maps : List MapTypes) (vars : List Ty) : List Ty :=
  (maps.flatMap (fun m => (m.key.toList ++ m.value.toList).filter (fun t => typeName t ≠ []))) ++ vars

theorem addNamed_eq (ts : List Ty) (o : Option Ty) : addNamed ts o = (o.toList.filter (fun t => typeName t ≠ [])).foldl addType ts := by
  cases o with
  | none => rfl
  | some t => by_cases h : typeName t = [] <;> simp [addNamed, h]

theorem collect_eq (maps : List MapTypes) (vars : List Ty) :
    collectVariableTypes (collectMapTypes [] maps) vars = (sources maps vars).foldl addType [] := by
  unfold collectVariableTypes sources
  rw [List.foldl_append]
  congr 1
  unfold collectMapTypes
  generalize ([] : List Ty) = acc
  induction maps generalizing acc with
  | nil => rfl
  | cons m ms ih =>
    rw [List.foldl_cons, ih, List.flatMap_cons, List.foldl_append, List.filter_append, List.foldl_append, addNamed_eq, addNamed_eq]

theorem wanted_iff (maps : List MapTypes) (vars : List Ty) (d : Ty) :
    Wanted maps vars d ↔ ∃ t ∈ sources maps vars, Declares t d := by
  unfold Wanted sources
  simp only [List.mem_append, List.mem_flatMap, List.mem_filter, Option.mem_toList, typeName_eq, ne_eq, decide_not, Bool.not_eq_eq_eq_not,
    Bool.not_true, decide_eq_false_iff_not]
  constructor
  · rintro (⟨m, hm, t, h1, h2, h3⟩ | ⟨t, h1, h2⟩)
    · exact ⟨t, .inl ⟨m, hm, h1, h2⟩, h3⟩
    · exact ⟨t, .inr h1, h2⟩
  · rintro ⟨t, ⟨m, hm, h1, h2⟩ | h1, h3⟩
    · exact .inl ⟨m, hm, t, h1, h2, h3⟩
    · exact .inr ⟨t, h1, h3⟩

/-- **The types of maps and variables are declared once each**, sorted by name, whatever the order in which maps and variables are visited; if no two of
them have the same name. -/
theorem collected_partial (le : Name → Name → Bool) (ho : Order le) (maps : List MapTypes) (vars : List Ty)
    (hu : ∀ d d', Wanted maps vars d → Wanted maps vars d' → nameOf d = nameOf d' → d = d') :
    (∀ d, d ∈ collectGlobalTypes le maps vars ↔ Wanted maps vars d) ∧
    (collectGlobalTypes le maps vars).Pairwise (fun a b => nameOf a ≠ nameOf b ∧ le (nameOf a) (nameOf b) = true) ∧
    ∀ maps' vars', maps'.Perm maps → vars'.Perm vars → collectGlobalTypes le maps' vars' = collectGlobalTypes le maps vars := by
  have key : ∀ maps' vars', (∀ d d', Wanted maps' vars' d → Wanted maps' vars' d' → nameOf d = nameOf d' → d = d') →
      (∀ d, d ∈ collectGlobalTypes le maps' vars' ↔ Wanted maps' vars' d) ∧
      (collectGlobalTypes le maps' vars').Pairwise (fun a b => nameOf a ≠ nameOf b) ∧
      (collectGlobalTypes le maps' vars').Pairwise (fun a b => le (nameOf a) (nameOf b) = true) := by
    intro maps' vars' hu'
    obtain ⟨f1, f2⟩ := fold_addType (sources maps' vars') [] (by
      intro t ht d hd
      refine ⟨?_, by simp⟩
      intro t' ht' d' hd' he
      exact hu' d d' ((wanted_iff _ _ _).mpr ⟨t, ht, hd⟩) ((wanted_iff _ _ _).mpr ⟨t', ht', hd'⟩) he) List.Pairwise.nil
    unfold collectGlobalTypes
    rw [collect_eq]
    obtain ⟨s1, s2⟩ := sortBy_spec le ho typeName ((sources maps' vars').foldl addType [])
    refine ⟨?_, ?_, ?_⟩
    · intro d
      rw [s1.mem_iff, f2, wanted_iff]
      simp
    · exact (s1.pairwise_iff (fun h e => h e.symm)).mpr f1
    · refine s2.imp ?_
      intro a b h
      rwa [typeName_eq, typeName_eq] at h
  obtain ⟨k1, k2, k3⟩ := key maps vars hu
  refine ⟨k1, List.pairwise_and_iff.mpr ⟨k2, k3⟩, ?_⟩
  intro maps' vars' hm hv
  have hw : ∀ d, Wanted maps' vars' d ↔ Wanted maps vars d := by
    intro d
    unfold Wanted
    simp only [hm.mem_iff, hv.mem_iff]
  obtain ⟨l1, l2, l3⟩ := key maps' vars' (by simpa only [hw] using hu)
  have nd : ∀ (l : List Ty), l.Pairwise (fun a b => nameOf a ≠ nameOf b) → l.Nodup := by
    intro l h
    exact h.imp (fun h e => h (congrArg nameOf e))
  refine sorted_unique le ho nameOf _ _ ?_ l2 l3 k3
  exact (List.perm_ext_iff_of_nodup (nd _ l2) (nd _ k2)).mpr (fun d => by rw [l1, k1, hw])

/-- **Two types of one name.** Without the hypothesis which type is declared depends on the order in which Go visits maps: for two maps whose keys are different
types of the same name, each of the two can be the one. -/
theorem which_type_is_random (le : Name → Name → Bool) (n : Name) (hn : n ≠ []) :
    collectGlobalTypes le [⟨some (.comp 1 n), none⟩, ⟨some (.typedef 3 n (.comp 2 [])), none⟩] [] = [.comp 1 n] ∧
    collectGlobalTypes le [⟨some (.typedef 3 n (.comp 2 [])), none⟩, ⟨some (.comp 1 n), none⟩] [] = [.typedef 3 n (.comp 2 [])] := by
  have e1 : selectType (.comp 1 n) = some (.comp 1 n) := select_comp _ 1 n rfl
  have e2 : selectType (.typedef 3 n (.comp 2 [])) = some (.typedef 3 n (.comp 2 [])) := select_comp _ 2 [] rfl
  constructor <;>
  simp [collectGlobalTypes, collectVariableTypes, collectMapTypes, addNamed, typeName, hn, addType, e1, e2, qualified, sortBy, insertBy]

/-- Keys and values that are arrays are not looked at: a map of arrays of a struct gives no declaration of the struct. -/
theorem array_values_missed (le : Name → Name → Bool) (n : Name) (hn : n ≠ []) :
    Declares (.array (.comp 1 n)) (.comp 1 n) ∧ collectGlobalTypes le [⟨none, some (.array (.comp 1 n))⟩] [] = [] :=
  ⟨.array _ _ (.comp 1 n hn), by simp [collectGlobalTypes, collectVariableTypes, collectMapTypes, addNamed, typeName, sortBy]⟩

/-! ## Sorting types by their Go names -/

theorem findIdx_split {α : Type} (p : α → Bool) (l : List α) :
    ∃ a b, l = a ++ b ∧ l.findIdx p = a.length ∧ (∀ x ∈ a, p x = false) ∧ (∀ y ys, b = y :: ys → p y = true) := by
  induction l with
  | nil => exact ⟨[], [], rfl, rfl, by simp, by simp⟩
  | cons x l ih =>
    by_cases h : p x = true
    · exact ⟨[], x :: l, rfl, by simp [List.findIdx_cons, h], by simp, by intro y ys e; cases e; exact h⟩
    · have h : p x = false := by simpa using h
      obtain ⟨a, b, h1, h2, h3, h4⟩ := ih
      exact ⟨x :: a, b, by rw [h1]; rfl, by rw [List.findIdx_cons, h, h2]; simp,
        by intro y hy; exact (List.mem_cons.mp hy).elim (fun e => e ▸ h) (h3 y), h4⟩

theorem sortTypes_acc (le : Name → Name → Bool) (ho : Order le) (l acc : List (Ty × Name))
    (ha : acc.Pairwise (fun p q => p.2 ≠ q.2)) (hs : acc.Pairwise (fun p q => le p.2 q.2 = true)) :
    ((acc ++ l).Pairwise (fun p q => p.2 ≠ q.2) →
      ∃ r, sortTypes le l acc = some r ∧ r.Perm (acc ++ l) ∧ r.Pairwise (fun p q => le p.2 q.2 = true)) ∧
    (¬ (acc ++ l).Pairwise (fun p q => p.2 ≠ q.2) → sortTypes le l acc = none) := by
  induction l generalizing acc with
  | nil =>
    refine ⟨fun _ => ⟨acc, rfl, by simp, hs⟩, fun h => absurd (by simpa using ha) h⟩
  | cons x l ih =>
    obtain ⟨t, n⟩ := x
    obtain ⟨a, b, h1, h2, h3, h4⟩ := findIdx_split (fun p : Ty × Name => le n p.2) acc
    have hmid : ∀ {R : (Ty × Name) → (Ty × Name) → Prop}, (∀ {x y}, R x y → R y x) →
        ((acc ++ (t, n) :: l).Pairwise R ↔ ((a ++ (t, n) :: b) ++ l).Pairwise R) := by
      intro R hR
      refine List.Perm.pairwise_iff hR ?_
      rw [h1, List.append_assoc, List.append_assoc]
      refine List.Perm.append_left a ?_
      exact (List.perm_middle (l₁ := b) (a := (t, n)) (l₂ := l))
    have hperm : (a ++ (t, n) :: b ++ l).Perm (acc ++ (t, n) :: l) := by
      rw [h1, List.append_assoc, List.append_assoc]
      exact List.Perm.append_left a (List.perm_middle (l₁ := b) (a := (t, n)) (l₂ := l)).symm
    have hsorted : (a ++ (t, n) :: b).Pairwise (fun p q => le p.2 q.2 = true) := by
      rw [h1, List.pairwise_append] at hs
      obtain ⟨s1, s2, s3⟩ := hs
      rw [List.pairwise_append]
      refine ⟨s1, ?_, ?_⟩
      · refine List.pairwise_cons.mpr ⟨?_, s2⟩
        intro q hq
        cases b with
        | nil => cases hq
        | cons y ys =>
          have hy := h4 y ys rfl
          rcases List.mem_cons.mp hq with rfl | hq
          · exact hy
          · exact ho.trans _ _ _ hy ((List.pairwise_cons.mp s2).1 q hq)
      · intro p hp q hq
        rcases List.mem_cons.mp hq with rfl | hq
        · refine (ho.total p.2 n).resolve_right ?_
          have := h3 p hp
          simp [this]
        · exact s3 p hp q hq
    unfold sortTypes
    simp only [h2]
    have hb : acc[a.length]? = b.head? := by rw [h1, List.getElem?_append_right (Nat.le_refl _)]; simp [List.head?_eq_getElem?]
    rw [hb]
    have hget : acc.take a.length = a ∧ acc.drop a.length = b := by rw [h1]; simp
    cases hbb : b with
    | nil =>
      subst hbb
      dsimp only [List.head?_nil]
      have e : acc ++ [(t, n)] = a ++ (t, n) :: [] := by rw [h1]; simp
      have hx : acc ++ [(t, n)] ++ l = acc ++ (t, n) :: l := by simp
      by_cases hd : (acc ++ (t, n) :: l).Pairwise (fun p q => p.2 ≠ q.2)
      · obtain ⟨i1, _⟩ := ih (acc ++ [(t, n)]) (by
          rw [← hx] at hd; exact (List.pairwise_append.mp hd).1) (by rw [e]; exact hsorted)
        rw [hx] at i1
        exact ⟨i1, fun h => absurd hd h⟩
      · refine ⟨fun h => absurd h hd, fun _ => ?_⟩
        have hnew : (acc ++ [(t, n)]).Pairwise (fun p q => p.2 ≠ q.2) := by
          rw [List.pairwise_append]
          refine ⟨ha, List.pairwise_singleton _ _, ?_⟩
          intro p hp q hq
          rw [List.mem_singleton.mp hq]
          intro e'
          rw [h1] at hp
          have := h3 p (by simpa using hp)
          simp only [e'] at this
          rcases ho.total n n with h | h <;> rw [h] at this <;> cases this
        exact (ih (acc ++ [(t, n)]) hnew (by rw [e]; exact hsorted)).2 (by rw [hx]; exact hd)
    | cons y ys =>
      subst hbb
      dsimp only [List.head?_cons]
      rw [hget.1, hget.2]
      have hy := h4 y ys rfl
      split
      · rename_i he
        have hdup : ¬ (acc ++ (t, n) :: l).Pairwise (fun p q => p.2 ≠ q.2) := by
          intro hp
          rw [List.pairwise_append] at hp
          exact hp.2.2 y (by rw [h1]; simp) (t, n) (by simp) he
        exact ⟨fun h => absurd h hdup, fun _ => rfl⟩
      · rename_i he
        have hnew : (a ++ (t, n) :: y :: ys).Pairwise (fun p q => p.2 ≠ q.2) := by
          have ha' := ha
          rw [h1, List.pairwise_append] at ha'
          rw [List.pairwise_append]
          refine ⟨ha'.1, List.pairwise_cons.mpr ⟨?_, ha'.2.1⟩, ?_⟩
          · intro q hq e'
            dsimp only at e'
            rcases List.mem_cons.mp hq with rfl | hq
            · exact he e'.symm
            · have hs' := hs
              rw [h1, List.pairwise_append, List.pairwise_cons] at hs'
              have := hs'.2.1.1 q hq
              rw [← e'] at this
              exact he (ho.antisymm _ _ this hy)
          · intro p hp q hq
            rcases List.mem_cons.mp hq with rfl | hq
            · intro e'
              have := h3 p hp
              simp only [e'] at this
              rcases ho.total n n with h | h <;> rw [h] at this <;> cases this
            · exact ha'.2.2 p hp q hq
        obtain ⟨i1, i2⟩ := ih _ hnew hsorted
        refine ⟨?_, ?_⟩
        · intro hd
          obtain ⟨r, r1, r2, r3⟩ := i1 ((hmid (fun h e => h e.symm)).mp hd)
          exact ⟨r, r1, r2.trans hperm, r3⟩
        · intro hd
          exact i2 (fun h => hd ((hmid (fun h e => h e.symm)).mpr h))

/-- **Types are sorted by their Go names, and names used twice are refused**, whatever the order in which the types are visited. -/
theorem sortTypes_spec (le : Name → Name → Bool) (ho : Order le) (l : List (Ty × Name)) :
    (l.Pairwise (fun p q => p.2 ≠ q.2) →
      ∃ r, sortTypes le l [] = some r ∧ r.Perm l ∧ r.Pairwise (fun p q => le p.2 q.2 = true) ∧
        ∀ l', l'.Perm l → sortTypes le l' [] = some r) ∧
    (¬ l.Pairwise (fun p q => p.2 ≠ q.2) → sortTypes le l [] = none) := by
  obtain ⟨h1, h2⟩ := sortTypes_acc le ho l [] List.Pairwise.nil List.Pairwise.nil
  simp only [List.nil_append] at h1 h2
  refine ⟨?_, h2⟩
  intro hp
  obtain ⟨r, r1, r2, r3⟩ := h1 hp
  refine ⟨r, r1, r2, r3, ?_⟩
  intro l' hl
  have hp' : l'.Pairwise (fun p q => p.2 ≠ q.2) := (hl.pairwise_iff (fun h e => h e.symm)).mpr hp
  obtain ⟨r', r1', r2', r3'⟩ := (sortTypes_acc le ho l' [] List.Pairwise.nil List.Pairwise.nil).1 (by simpa using hp')
  rw [r1']
  congr 1
  have hpr : r'.Perm r := (by simpa using r2' : r'.Perm l').trans (hl.trans r2.symm)
  exact sorted_unique le ho (·.2) r' r hpr
    ((List.Perm.pairwise_iff (fun h e => h e.symm) (by simpa using r2' : r'.Perm l')).mpr hp') r3' r3

/-! ## What is generated -/

/-- The fields for some objects: one for each, tagged with its name, an exported identifier. -/
def FieldsFor (names : List Name) (fields : List (Name × Name)) : Prop :=
  (fields.map (·.2)).Perm names ∧ ∀ p ∈ fields, p.1 = [] ∨ Exported p.1

theorem identifier_chars (n : Name) : ∀ d ∈ identifier n, isLetter d = true ∨ isDigit d = true ∨ d = '_' := identLoop_chars n none

theorem identifier_head (n : Name) (c : Char) (s : Name) (h : identifier n = c :: s) (hd : isDigit c = false) : Exported (identifier n) := by
  refine (identifier_exported n).1.mpr ?_
  cases hf : n.find? (fun c => isLetter c || isDigit c) with
  | none =>
    have : identifier n = [] := (identifier_exported n).2.mpr (by
      intro c hc
      have := List.find?_eq_none.mp hf c hc
      simpa using this)
    rw [h] at this; cases this
  | some c' =>
    refine ⟨c', rfl, ?_⟩
    refine Decidable.byContradiction fun hl => ?_
    have hl : isLetter c' = false := by simpa using hl
    have hd' : isDigit c' = true := by have := List.find?_some hf; simpa [hl] using this
    have key : ∀ (l : Name), l.find? (fun c => isLetter c || isDigit c) = some c' → ∃ r, identLoop none l = c' :: r := by
      intro l
      induction l with
      | nil => intro h; cases h
      | cons r l ih =>
        intro hf
        rw [List.find?_cons] at hf
        split at hf
        · cases hf
          have hne : c' ≠ '_' := by intro e; rw [e] at hd'; exact absurd hd' (by decide)
          refine ⟨identLoop (some c') l, ?_⟩
          conv => lhs; unfold identLoop
          simp [identStep, hl, hd', hne]
        · rename_i hr
          simp only [Bool.or_eq_false_iff] at hr
          have hs : identStep none r = (none, none) := by
            by_cases hu : r = '_'
            · simp [identStep, hu, underscore_not]
            · simp [identStep, hr.1, hr.2, hu]
          obtain ⟨x, hx⟩ := ih hf
          refine ⟨x, ?_⟩
          conv => lhs; unfold identLoop
          rw [hs]
          exact hx
    obtain ⟨r, hr⟩ := key n hf
    unfold identifier at h
    rw [hr] at h
    cases h
    rw [hd'] at hd
    cases hd

theorem fieldsFor (le : Name → Name → Bool) (ho : Order le) (names : List Name)
    (h : ∀ p ∈ (sortBy le id names).map (fun n => (identifier n, n)), fieldOk p.1 = true) :
    FieldsFor names ((sortBy le id names).map (fun n => (identifier n, n))) := by
  refine ⟨?_, ?_⟩
  · rw [List.map_map]
    have : ((fun p : Name × Name => p.2) ∘ fun n => (identifier n, n)) = id := rfl
    rw [this, List.map_id]
    exact (sortBy_spec le ho id names).1
  · intro p hp
    have hf := h p hp
    obtain ⟨n, _, rfl⟩ := List.mem_map.mp hp
    dsimp only at hf ⊢
    cases hi : identifier n with
    | nil => exact .inl rfl
    | cons c s =>
      right
      rw [hi] at hf
      rw [← hi]
      exact identifier_head n c s hi (by simpa [fieldOk] using hf)

/-- **The bindings are complete.** If generating succeeds then there is a field for each map, program and variable, tagged with its name, in the structs of specs
and of objects; closing covers all fields for programs and maps; these have exported names. There is a constant for each object with its name. -/
theorem generate_complete (le : Name → Name → Bool) (ho : Order le) (stem : Name) (maps vars progs : List Name) (types : List (Ty × Name))
    (o : Out) (h : generate le stem maps vars progs types = some o) :
    FieldsFor maps o.maps ∧ FieldsFor maps o.mapSpecs ∧ FieldsFor progs o.progs ∧ FieldsFor progs o.progSpecs ∧
    FieldsFor vars o.vars ∧ FieldsFor vars o.varSpecs ∧
    (∀ p ∈ o.maps ++ o.progs, Exported p.1) ∧
    o.closeMaps = o.maps.map (·.1) ∧ o.closeProgs = o.progs.map (·.1) ∧
    (o.consts.map (·.2)).Perm (maps ++ progs ++ vars) ∧ (o.types.map (fun p => (p.2, p.1))).Perm types ∧
    o.types.Pairwise (fun p q => p.1 ≠ q.1) := by
  unfold generate at h
  dsimp only at h
  by_cases hd : types.Pairwise (fun p q => p.2 ≠ q.2)
  · obtain ⟨r, r1, r2, r3, _⟩ := (sortTypes_spec le ho types).1 hd
    rw [r1] at h
    dsimp only at h
    split at h
    · rename_i hc
      cases h
      simp only [Bool.and_eq_true, List.all_eq_true, decide_eq_true_eq, ne_eq] at hc
      obtain ⟨c1, c2⟩ := hc
      have fm := fieldsFor le ho maps (fun p hp => (c1 p (List.mem_append_left _ hp)).1)
      have fp := fieldsFor le ho progs (fun p hp => (c1 p (List.mem_append_right _ hp)).1)
      have fv := fieldsFor le ho vars (fun p hp => c2 p hp)
      refine ⟨fm, fm, fp, fp, fv, fv, ?_, rfl, rfl, ?_, ?_, ?_⟩
      · intro p hp
        have hne := (c1 p hp).2
        rcases List.mem_append.mp hp with hp | hp
        · exact (fm.2 p hp).resolve_left hne
        · exact (fp.2 p hp).resolve_left hne
      · simp only [List.map_append]
        refine List.Perm.append (List.Perm.append ?_ ?_) ?_
        · rw [List.map_map]; exact fm.1
        · rw [List.map_map]; exact fp.1
        · rw [List.map_map]; exact fv.1
      · rw [List.map_map]
        have : ((fun p : Name × Ty => (p.2, p.1)) ∘ fun p : Ty × Name => (p.2, p.1)) = id := rfl
        rw [this, List.map_id]
        exact r2
      · rw [List.pairwise_map]
        exact (r2.pairwise_iff (fun h e => h e.symm)).mpr hd
    · cases h
  · rw [(sortTypes_spec le ho types).2 hd] at h
    cases h

/-- **The output doesn't depend on the order in which Go visits maps.** -/
theorem generate_deterministic (le : Name → Name → Bool) (ho : Order le) (stem : Name) (maps vars progs maps' vars' progs' : List Name)
    (types types' : List (Ty × Name)) (hm : maps'.Perm maps) (hv : vars'.Perm vars) (hp : progs'.Perm progs) (ht : types'.Perm types)
    (nm : maps.Nodup) (nv : vars.Nodup) (np : progs.Nodup) :
    generate le stem maps' vars' progs' types' = generate le stem maps vars progs types := by
  have srt : ∀ (l l' : List Name), l'.Perm l → l.Nodup → sortBy le id l' = sortBy le id l := by
    intro l l' hl hn
    obtain ⟨a1, a2⟩ := sortBy_spec le ho id l
    obtain ⟨b1, b2⟩ := sortBy_spec le ho id l'
    refine sorted_unique le ho id _ _ (b1.trans (hl.trans a1.symm)) ?_ b2 a2
    have : (sortBy le id l').Nodup := (b1.trans hl).nodup_iff.mpr hn
    exact this
  have st : sortTypes le types' [] = sortTypes le types [] := by
    by_cases hd : types.Pairwise (fun p q => p.2 ≠ q.2)
    · obtain ⟨r, r1, _, _, r4⟩ := (sortTypes_spec le ho types).1 hd
      rw [r1, r4 _ ht]
    · rw [(sortTypes_spec le ho types).2 hd, (sortTypes_spec le ho types').2 (fun h => hd ((ht.pairwise_iff (fun h e => h e.symm)).mp h))]
  unfold generate
  rw [srt _ _ hm nm, srt _ _ hv nv, srt _ _ hp np, st]

/-- Generating fails only for names from which no field can be made, or if two types would have one name. -/
theorem generate_succeeds (le : Name → Name → Bool) (ho : Order le) (stem : Name) (maps vars progs : List Name) (types : List (Ty × Name))
    (hn : ∀ n ∈ maps ++ progs ++ vars, ∃ c, n.find? (fun c => isLetter c || isDigit c) = some c ∧ isLetter c = true)
    (hd : types.Pairwise (fun p q => p.2 ≠ q.2)) : ∃ o, generate le stem maps vars progs types = some o := by
  obtain ⟨r, r1, _⟩ := (sortTypes_spec le ho types).1 hd
  have ok : ∀ n, Exported (identifier n) → fieldOk (identifier n) = true ∧ identifier n ≠ [] := by
    intro n hn
    cases hi : identifier n with
    | nil => rw [hi] at hn; exact hn.elim
    | cons c s =>
      rw [hi] at hn
      refine ⟨?_, by simp⟩
      have hu : isUpper c = true := hn.1
      simp only [fieldOk, isUpper, isDigit, Bool.not_eq_true', Bool.and_eq_true, decide_eq_true_eq] at hu ⊢
      rw [← Bool.not_eq_true, Bool.and_eq_true, decide_eq_true_eq, decide_eq_true_eq]
      rintro ⟨_, h9⟩
      have h1 : (65 : Nat) ≤ c.toNat := hu.1
      have h2 : c.toNat ≤ 57 := h9
      omega
  have all : ∀ (l : List Name), (∀ n ∈ l, n ∈ maps ++ progs ++ vars) →
      ∀ p ∈ (sortBy le id l).map (fun n => (identifier n, n)), fieldOk p.1 = true ∧ p.1 ≠ [] := by
    intro l hl p hp
    obtain ⟨n, hn', rfl⟩ := List.mem_map.mp hp
    exact ok n ((identifier_exported n).1.mpr (hn n (hl n ((sortBy_spec le ho id l).1.mem_iff.mp hn'))))
  unfold generate
  dsimp only
  rw [r1]
  dsimp only
  rw [if_pos]
  · exact ⟨_, rfl⟩
  · simp only [Bool.and_eq_true, List.all_eq_true, decide_eq_true_eq, ne_eq]
    refine ⟨?_, ?_⟩
    · intro p hp
      rcases List.mem_append.mp hp with hp | hp
      · exact all maps (fun n h => by simp [h]) p hp
      · exact all progs (fun n h => by simp [h]) p hp
    · intro p hp
      exact (all vars (fun n h => by simp [h]) p hp).1

/-! ## Closing -/

theorem closeHelper_all {α : Type} (err : α → Bool) (l : List α) (h : ∀ x ∈ l, err x = false) : closeHelper err l = (l, false) := by
  induction l with
  | nil => rfl
  | cons x l ih => simp [closeHelper, h x (by simp), ih (fun y hy => h y (by simp [hy]))]

/-- **Close closes every program and map**, if all can be closed. -/
theorem close_all_partial (le : Name → Name → Bool) (ho : Order le) (stem : Name) (maps vars progs : List Name) (types : List (Ty × Name))
    (o : Out) (h : generate le stem maps vars progs types = some o) (err : Obj → Bool) (he : ∀ x, err x = false) :
    (∀ p ∈ o.progs, Obj.prog p.1 ∈ (closeObjects err o).1) ∧ (∀ p ∈ o.maps, Obj.map p.1 ∈ (closeObjects err o).1) ∧
      (closeObjects err o).2 = false := by
  obtain ⟨_, _, _, _, _, _, _, c1, c2, _⟩ := generate_complete le ho stem maps vars progs types o h
  unfold closeObjects
  rw [closeHelper_all _ _ (fun x _ => he x), closeHelper_all _ _ (fun x _ => he x), c1, c2]
  dsimp only
  refine ⟨?_, ?_, rfl⟩
  · intro p hp; simp only [List.mem_append, List.mem_map]; exact .inl ⟨p.1, ⟨p, hp, rfl⟩, rfl⟩
  · intro p hp; simp only [List.mem_append, List.mem_map]; exact .inr ⟨p.1, ⟨p, hp, rfl⟩, rfl⟩

/-- **One error and the rest stays open.** If the first program can't be closed nothing else is. -/
theorem close_stops (err : Obj → Bool) (o : Out) (f : Name) (fs : List Name) (hp : o.closeProgs = f :: fs) (he : err (.prog f) = true) :
    closeObjects err o = ([.prog f], true) := by
  simp [closeObjects, hp, closeHelper, he]

/-! ## The package compiles -/

/-- The suffixes of the names which are always declared. -/
def Reserved : List Name :=
  ["Specs".toList, "ProgramSpecs".toList, "MapSpecs".toList, "VariableSpecs".toList, "Objects".toList, "Maps".toList, "Variables".toList,
   "Programs".toList]

/-- Not beginning with a lower case letter. -/
def NotLower : Name → Prop
  | [] => True
  | c :: _ => isLower c = false

theorem upper_not_lower (c : Char) (h : isUpper c = true) : isLower c = false := by
  simp only [isUpper, isLower, Bool.and_eq_true, decide_eq_true_eq] at *
  rw [← Bool.not_eq_true, Bool.and_eq_true, decide_eq_true_eq, decide_eq_true_eq]
  rintro ⟨h1, _⟩
  have a : c.toNat ≤ 90 := h.2
  have b : (97 : Nat) ≤ c.toNat := h1
  omega

theorem digit_not_lower (c : Char) (h : isDigit c = true) : isLower c = false := by
  simp only [isDigit, isLower, Bool.and_eq_true, decide_eq_true_eq] at *
  rw [← Bool.not_eq_true, Bool.and_eq_true, decide_eq_true_eq, decide_eq_true_eq]
  rintro ⟨h1, _⟩
  have a : c.toNat ≤ 57 := h.2
  have b : (97 : Nat) ≤ c.toNat := h1
  omega

theorem identifier_notLower (n : Name) : NotLower (identifier n) := by
  cases hi : identifier n with
  | nil => trivial
  | cons c s =>
    by_cases hd : isDigit c = true
    · exact digit_not_lower c hd
    · have h := identifier_head n c s hi (by simpa using hd)
      rw [hi] at h
      exact upper_not_lower c h.1

theorem load_ne (l : Char) (stem x rest : Name) (hs : stem ≠ []) (hl : ¬ (l :: "oad".toList) <+: stem) (hx : NotLower x) (hx0 : x ≠ []) :
    l :: "oad".toList ++ rest ≠ stem ++ x := by
  intro h
  have : ("oad".toList : Name) = ['o', 'a', 'd'] := by decide
  rw [this] at h hl
  match stem, hs with
  | [a], _ =>
    match x, hx0 with
    | b :: x, _ => simp at h; obtain ⟨_, rfl, _⟩ := h; exact absurd hx (by simp [NotLower]; decide)
  | [a, b], _ =>
    match x, hx0 with
    | c :: x, _ => simp at h; obtain ⟨_, _, rfl, _⟩ := h; exact absurd hx (by simp [NotLower]; decide)
  | [a, b, c], _ =>
    match x, hx0 with
    | d :: x, _ => simp at h; obtain ⟨_, _, _, rfl, _⟩ := h; exact absurd hx (by simp [NotLower]; decide)
  | a :: b :: c :: d :: s, _ =>
    simp at h
    obtain ⟨rfl, rfl, rfl, rfl, _⟩ := h
    exact hl ⟨s, rfl⟩

theorem load_len (l : Char) (stem rest : Name) (hr : stem.length ≤ rest.length) : l :: "oad".toList ++ rest ≠ stem := by
  intro h
  have := congrArg List.length h
  simp at this
  omega

theorem toUpperFirst_length (s : Name) : (toUpperFirst s).length = s.length := by cases s <;> rfl

theorem loadName_eq (stem : Name) : ∃ l, (l = 'l' ∨ l = 'L') ∧ loadName stem = l :: "oad".toList ++ toUpperFirst stem ∧
    loadObjectsName stem = l :: "oad".toList ++ (toUpperFirst stem ++ "Objects".toList) := by
  have e : ("load".toList : Name) = 'l' :: "oad".toList := by decide
  have u : upper 'l' = 'L' := by decide
  unfold loadName loadObjectsName
  dsimp only
  rw [e]
  by_cases h : isExported stem = true
  · exact ⟨'L', .inr rfl, by rw [if_pos h]; simp only [toUpperFirst, List.cons_append]; rw [u],
      by rw [if_pos h]; simp only [toUpperFirst, List.cons_append]; rw [u]⟩
  · exact ⟨'l', .inl rfl, by rw [if_neg h], by rw [if_neg h]⟩

theorem generate_shape (le : Name → Name → Bool) (stem : Name) (maps vars progs : List Name) (types : List (Ty × Name))
    (o : Out) (h : generate le stem maps vars progs types = some o) :
    o.maps = (sortBy le id maps).map (fun n => (identifier n, n)) ∧ o.progs = (sortBy le id progs).map (fun n => (identifier n, n)) ∧
    o.vars = (sortBy le id vars).map (fun n => (identifier n, n)) ∧
    o.consts.map (·.1) = (o.maps.map (fun p => "Map".toList ++ p.1) ++ o.progs.map (fun p => "Prog".toList ++ p.1) ++
      o.vars.map (fun p => "Var".toList ++ p.1)).map (stem ++ ·) := by
  unfold generate at h
  dsimp only at h
  split at h
  · cases h
  · split at h
    · cases h
      refine ⟨rfl, rfl, rfl, ?_⟩
      simp only [List.map_append, List.map_map]
      refine congr (congrArg _ (congr (congrArg _ ?_) ?_)) ?_ <;>
      · refine List.map_congr_left (fun p _ => ?_)
        simp [List.append_assoc]
    · cases h

theorem typeNames_mem (stem : Name) (tys : List Ty) : ∀ p ∈ typeNames stem tys, p.1 ∈ tys ∧ p.2 = stem ++ identifier (typeName p.1) := by
  have key : ∀ (l : List Ty) (acc : List (Ty × Name)), (∀ t ∈ l, t ∈ tys) →
      (∀ p ∈ acc, p.1 ∈ tys ∧ p.2 = stem ++ identifier (typeName p.1)) →
      ∀ p ∈ l.foldl (fun m t => if m.any (fun p => p.1 = t) then m else m ++ [(t, stem ++ identifier (typeName t))]) acc,
        p.1 ∈ tys ∧ p.2 = stem ++ identifier (typeName p.1) := by
    intro l
    induction l with
    | nil => intro acc _ h; exact h
    | cons t l ih =>
      intro acc hl h
      rw [List.foldl_cons]
      refine ih _ (fun t ht => hl t (by simp [ht])) ?_
      split
      · exact h
      · intro p hp
        rcases List.mem_append.mp hp with hp | hp
        · exact h p hp
        · cases List.mem_singleton.mp hp
          exact ⟨hl t (by simp), rfl⟩
  exact key tys [] (fun _ h => h) (by simp)

theorem nodup_map_append (a : Name) (l : List Name) (h : l.Nodup) : (l.map (a ++ ·)).Nodup := by
  rw [List.Nodup, List.pairwise_map]
  exact h.imp (fun hne e => hne (List.append_cancel_left e))

theorem fields_nodup (le : Name → Name → Bool) (ho : Order le) (l : List Name) (h : (l.map identifier).Nodup) :
    (((sortBy le id l).map (fun n => (identifier n, n))).map (·.1)).Nodup := by
  rw [List.map_map]
  have p := ((sortBy_spec le ho id l).1.map identifier)
  exact p.nodup_iff.mpr h

theorem fields_mem (le : Name → Name → Bool) (ho : Order le) (l : List Name) (p : Name × Name)
    (h : p ∈ (sortBy le id l).map (fun n => (identifier n, n))) : p.1 ∈ l.map identifier := by
  obtain ⟨n, hn, rfl⟩ := List.mem_map.mp h
  exact List.mem_map.mpr ⟨n, (sortBy_spec le ho id l).1.mem_iff.mp hn, rfl⟩

theorem kind_not_reserved (id : Name) (hi : NotLower id) :
    ("Map".toList ++ id ∈ Reserved → id = "Specs".toList) ∧ "Prog".toList ++ id ∉ Reserved ∧ "Var".toList ++ id ∉ Reserved := by
  have e1 : ("Map".toList : Name) = ['M', 'a', 'p'] := by decide
  have e2 : ("Prog".toList : Name) = ['P', 'r', 'o', 'g'] := by decide
  have e3 : ("Var".toList : Name) = ['V', 'a', 'r'] := by decide
  have r : Reserved = [['S','p','e','c','s'], ['P','r','o','g','r','a','m','S','p','e','c','s'], ['M','a','p','S','p','e','c','s'],
    ['V','a','r','i','a','b','l','e','S','p','e','c','s'], ['O','b','j','e','c','t','s'], ['M','a','p','s'], ['V','a','r','i','a','b','l','e','s'],
    ['P','r','o','g','r','a','m','s']] := by decide
  have e4 : ("Specs".toList : Name) = ['S','p','e','c','s'] := by decide
  rw [e1, e2, e3, e4, r]
  refine ⟨?_, ?_, ?_⟩
  · simp
    rintro (h | h)
    · exact h
    · rw [h] at hi; exact absurd hi (by simp [NotLower]; decide)
  · simp
    refine ⟨?_, ?_⟩ <;> (intro h; rw [h] at hi; exact absurd hi (by simp [NotLower]; decide))
  · simp
    refine ⟨?_, ?_⟩ <;> (intro h; rw [h] at hi; exact absurd hi (by simp [NotLower]; decide))

/-- **The generated package declares every name once**: no two declarations at the top level, no two fields of a struct and no field and method have the same name.
The assumptions: identifiers of objects of one kind differ, no map is `specs`, no map and no program is `close`; names of types don't clash with what
is generated for the objects; the name of the package isn't `load…`. Go doesn't check them, see below. -/
theorem names_distinct_partial (le : Name → Name → Bool) (ho : Order le) (stem : Name) (maps vars progs : List Name) (tys : List Ty)
    (o : Out) (h : generate le stem maps vars progs (typeNames stem tys) = some o)
    (hs : ∃ c s, stem = c :: s ∧ isLetter c = true) (hl : ¬ "load".toList <+: stem) (hL : ¬ "Load".toList <+: stem)
    (nm : (maps.map identifier).Nodup) (nv : (vars.map identifier).Nodup) (np : (progs.map identifier).Nodup)
    (hms : "Specs".toList ∉ maps.map identifier) (hcm : "Close".toList ∉ maps.map identifier) (hcp : "Close".toList ∉ progs.map identifier)
    (ht : ∀ t ∈ tys, identifier (nameOf t) ∉ Reserved ∧ (∀ n ∈ maps, identifier (nameOf t) ≠ "Map".toList ++ identifier n) ∧
      (∀ n ∈ progs, identifier (nameOf t) ≠ "Prog".toList ++ identifier n) ∧ (∀ n ∈ vars, identifier (nameOf t) ≠ "Var".toList ++ identifier n)) :
    (fixedNames stem ++ o.consts.map (·.1) ++ o.types.map (·.1)).Nodup ∧
    (o.maps.map (·.1)).Nodup ∧ (o.progs.map (·.1)).Nodup ∧ (o.vars.map (·.1)).Nodup ∧
    "Close".toList ∉ o.maps.map (·.1) ∧ "Close".toList ∉ o.progs.map (·.1) := by
  obtain ⟨s1, s2, s3, s4⟩ := generate_shape _ _ _ _ _ _ _ h
  obtain ⟨_, _, _, _, _, _, _, _, _, _, gt, gd⟩ := generate_complete le ho _ _ _ _ _ _ h
  have mm : ∀ p ∈ o.maps, p.1 ∈ maps.map identifier := fun p hp => fields_mem le ho maps p (s1 ▸ hp)
  have mp : ∀ p ∈ o.progs, p.1 ∈ progs.map identifier := fun p hp => fields_mem le ho progs p (s2 ▸ hp)
  have mv : ∀ p ∈ o.vars, p.1 ∈ vars.map identifier := fun p hp => fields_mem le ho vars p (s3 ▸ hp)
  have nlm : ∀ (l : List Name) (x : Name), x ∈ l.map identifier → NotLower x := by
    intro l x hx; obtain ⟨n, _, rfl⟩ := List.mem_map.mp hx; exact identifier_notLower n
  have dm : (o.maps.map (·.1)).Nodup := by rw [s1]; exact fields_nodup le ho maps nm
  have dp : (o.progs.map (·.1)).Nodup := by rw [s2]; exact fields_nodup le ho progs np
  have dv : (o.vars.map (·.1)).Nodup := by rw [s3]; exact fields_nodup le ho vars nv
  refine ⟨?_, dm, dp, dv, ?_, ?_⟩
  rotate_left
  · intro hc; obtain ⟨p, hp, e⟩ := List.mem_map.mp hc; exact hcm (e ▸ mm p hp)
  · intro hc; obtain ⟨p, hp, e⟩ := List.mem_map.mp hc; exact hcp (e ▸ mp p hp)
  obtain ⟨c, s, hcs, hcl⟩ := hs
  have hne : stem ≠ [] := by rw [hcs]; simp
  obtain ⟨l, hll, L1, L2⟩ := loadName_eq stem
  have hlp : ¬ (l :: "oad".toList) <+: stem := by
    rcases hll with rfl | rfl
    · have : 'l' :: "oad".toList = "load".toList := by decide
      rw [this]; exact hl
    · have : 'L' :: "oad".toList = "Load".toList := by decide
      rw [this]; exact hL
  -- names with the stem as prefix
  have notA : ∀ x, NotLower x → stem ++ x ≠ loadName stem ∧ stem ++ x ≠ loadObjectsName stem := by
    intro x hx
    rw [L1, L2]
    by_cases hx0 : x = []
    · subst hx0
      simp only [List.append_nil]
      exact ⟨fun e => load_len l stem _ (by rw [toUpperFirst_length]; exact Nat.le_refl _) e.symm,
        fun e => load_len l stem _ (by rw [List.length_append, toUpperFirst_length]; omega) e.symm⟩
    · exact ⟨fun e => load_ne l stem x _ hne hlp hx hx0 e.symm, fun e => load_ne l stem x _ hne hlp hx hx0 e.symm⟩
  have notC : ∀ x y, stem ++ x ≠ '_' :: y := by
    intro x y e
    rw [hcs] at e
    cases e
    exact absurd hcl (by decide)
  have lC : ∀ y z, l :: y ≠ '_' :: z := by
    intro y z e
    cases e
    rcases hll with e | e <;> exact absurd e (by decide)
  have f1 : fixedNames stem = [loadName stem, loadObjectsName stem] ++ Reserved.map (stem ++ ·) ++
      ['_' :: toUpperFirst stem ++ "Close".toList, '_' :: toUpperFirst stem ++ "Bytes".toList] := rfl
  have rl : ∀ x ∈ Reserved, NotLower x := by
    have : ∀ x ∈ Reserved, isLower (x.headD 'A') = false := by decide
    intro x hx
    have := this x hx
    cases x with
    | nil => trivial
    | cons a x => exact this
  -- the constants
  let K := o.maps.map (fun p => "Map".toList ++ p.1) ++ o.progs.map (fun p => "Prog".toList ++ p.1) ++ o.vars.map (fun p => "Var".toList ++ p.1)
  have kl : ∀ x ∈ K, NotLower x ∧ x ∉ Reserved ∧ ((∃ n ∈ maps, x = "Map".toList ++ identifier n) ∨ (∃ n ∈ progs, x = "Prog".toList ++ identifier n) ∨
      ∃ n ∈ vars, x = "Var".toList ++ identifier n) := by
    intro x hx
    rcases List.mem_append.mp hx with hx | hx
    · rcases List.mem_append.mp hx with hx | hx
      · obtain ⟨p, hp, rfl⟩ := List.mem_map.mp hx
        have hp' := mm p hp
        refine ⟨show isLower 'M' = false by decide, ?_, ?_⟩
        · intro hr; exact hms ((kind_not_reserved _ (nlm _ _ hp')).1 hr ▸ hp')
        · obtain ⟨n, hn, e⟩ := List.mem_map.mp hp'
          exact .inl ⟨n, hn, by rw [e]⟩
      · obtain ⟨p, hp, rfl⟩ := List.mem_map.mp hx
        have hp' := mp p hp
        refine ⟨show isLower 'P' = false by decide, (kind_not_reserved _ (nlm _ _ hp')).2.1, ?_⟩
        obtain ⟨n, hn, e⟩ := List.mem_map.mp hp'
        exact .inr (.inl ⟨n, hn, by rw [e]⟩)
    · obtain ⟨p, hp, rfl⟩ := List.mem_map.mp hx
      have hp' := mv p hp
      refine ⟨show isLower 'V' = false by decide, (kind_not_reserved _ (nlm _ _ hp')).2.2, ?_⟩
      obtain ⟨n, hn, e⟩ := List.mem_map.mp hp'
      exact .inr (.inr ⟨n, hn, by rw [e]⟩)
  have pre : ∀ (a : Name) (l : List (Name × Name)), (l.map (·.1)).Nodup → (l.map (fun p => a ++ p.1)).Nodup := by
    intro a l h
    have := nodup_map_append a _ h
    rwa [List.map_map] at this
  have hd : ∀ (a b : Char) (x y x' y' : Name), a ≠ b → (a :: x) ++ x' ≠ (b :: y) ++ y' := by
    intro a b x y x' y' h e; simp at e; exact h e.1
  have kd : K.Nodup := by
    refine List.nodup_append.mpr ⟨List.nodup_append.mpr ⟨pre _ _ dm, pre _ _ dp, ?_⟩, pre _ _ dv, ?_⟩
    · intro x hx y hy
      obtain ⟨p, _, rfl⟩ := List.mem_map.mp hx
      obtain ⟨q, _, rfl⟩ := List.mem_map.mp hy
      exact hd 'M' 'P' ['a','p'] ['r','o','g'] _ _ (by decide)
    · intro x hx y hy
      obtain ⟨q, _, rfl⟩ := List.mem_map.mp hy
      rcases List.mem_append.mp hx with hx | hx <;> obtain ⟨p, _, rfl⟩ := List.mem_map.mp hx
      · exact hd 'M' 'V' ['a','p'] ['a','r'] _ _ (by decide)
      · exact hd 'P' 'V' ['r','o','g'] ['a','r'] _ _ (by decide)
  -- the types
  have tl : ∀ n ∈ o.types.map (·.1), ∃ t ∈ tys, n = stem ++ identifier (nameOf t) := by
    intro n hn
    obtain ⟨p, hp, rfl⟩ := List.mem_map.mp hn
    have : (p.2, p.1) ∈ typeNames stem tys := gt.mem_iff.mp (List.mem_map.mpr ⟨p, hp, rfl⟩)
    obtain ⟨t1, t2⟩ := typeNames_mem stem tys _ this
    exact ⟨p.2, t1, by rw [← typeName_eq]; exact t2⟩
  have td : (o.types.map (·.1)).Nodup := by rw [List.Nodup, List.pairwise_map]; exact gd
  rw [s4, f1]
  have bm : ∀ {x} {L : List Name}, x ∈ L.map (stem ++ ·) → ∃ y ∈ L, x = stem ++ y := by
    intro x L h; obtain ⟨y, hy, e⟩ := List.mem_map.mp h; exact ⟨y, hy, e.symm⟩
  refine List.nodup_append.mpr ⟨List.nodup_append.mpr ⟨List.nodup_append.mpr ⟨List.nodup_append.mpr ⟨?_, ?_, ?_⟩, ?_, ?_⟩, ?_, ?_⟩, td, ?_⟩
  · simp only [List.nodup_cons, List.mem_singleton, List.not_mem_nil, not_false_eq_true, List.nodup_nil, and_true]
    rw [L1, L2]
    intro e
    have := congrArg List.length e
    simp at this
  · exact nodup_map_append _ _ (by decide)
  · intro x hx y hy e
    obtain ⟨z, hz, rfl⟩ := bm hy
    simp only [List.mem_cons, List.not_mem_nil, or_false] at hx
    rcases hx with rfl | rfl
    · exact (notA z (rl z hz)).1 e.symm
    · exact (notA z (rl z hz)).2 e.symm
  · simp only [List.nodup_cons, List.mem_singleton, List.not_mem_nil, not_false_eq_true, List.nodup_nil, and_true]
    intro e
    exact absurd (List.append_cancel_left e) (by decide)
  · intro x hx y hy e
    have hy : ∃ w, y = '_' :: w := by
      simp only [List.mem_cons, List.not_mem_nil, or_false] at hy
      rcases hy with rfl | rfl <;> exact ⟨_, rfl⟩
    obtain ⟨w, rfl⟩ := hy
    rcases List.mem_append.mp hx with hx | hx
    · simp only [List.mem_cons, List.not_mem_nil, or_false] at hx
      rcases hx with rfl | rfl
      · rw [L1] at e; exact lC _ _ e
      · rw [L2] at e; exact lC _ _ e
    · obtain ⟨z, _, rfl⟩ := bm hx
      exact notC _ _ e
  · exact nodup_map_append _ _ kd
  · intro x hx y hy e
    obtain ⟨k, hk, rfl⟩ := bm hy
    obtain ⟨k1, k2, _⟩ := kl k hk
    rcases List.mem_append.mp hx with hx | hx
    · rcases List.mem_append.mp hx with hx | hx
      · simp only [List.mem_cons, List.not_mem_nil, or_false] at hx
        rcases hx with rfl | rfl
        · exact (notA k k1).1 e.symm
        · exact (notA k k1).2 e.symm
      · obtain ⟨z, hz, rfl⟩ := bm hx
        exact k2 (List.append_cancel_left e ▸ hz)
    · simp only [List.mem_cons, List.not_mem_nil, or_false] at hx
      rcases hx with rfl | rfl <;> exact notC _ _ e.symm
  · intro x hx y hy e
    obtain ⟨t, htm, rfl⟩ := tl y hy
    obtain ⟨h1, h2, h3, h4⟩ := ht t htm
    have tn := identifier_notLower (nameOf t)
    rcases List.mem_append.mp hx with hx | hx
    · rcases List.mem_append.mp hx with hx | hx
      · rcases List.mem_append.mp hx with hx | hx
        · simp only [List.mem_cons, List.not_mem_nil, or_false] at hx
          rcases hx with rfl | rfl
          · exact (notA _ tn).1 e.symm
          · exact (notA _ tn).2 e.symm
        · obtain ⟨z, hz, rfl⟩ := bm hx
          exact h1 (List.append_cancel_left e ▸ hz)
      · simp only [List.mem_cons, List.not_mem_nil, or_false] at hx
        rcases hx with rfl | rfl <;> exact notC _ _ e.symm
    · obtain ⟨k, hk, rfl⟩ := bm hx
      have e := List.append_cancel_left e
      obtain ⟨_, _, hk⟩ := kl k hk
      rcases hk with ⟨n, hn, rfl⟩ | ⟨n, hn, rfl⟩ | ⟨n, hn, rfl⟩
      · exact h2 n hn e.symm
      · exact h3 n hn e.symm
      · exact h4 n hn e.symm

/-- **A map named `specs` breaks the package**: the constant for it and the struct of map specs have one name, and generating succeeds. -/
theorem map_specs_clashes (le : Name → Name → Bool) : ∃ o, generate le "foo".toList ["specs".toList] [] [] [] = some o ∧
    "fooMapSpecs".toList ∈ fixedNames "foo".toList ∧ "fooMapSpecs".toList ∈ o.consts.map (·.1) :=
  ⟨_, rfl, by decide, show _ ∈ ["fooMapSpecs".toList] from List.mem_singleton.mpr rfl⟩

/-- **A map `x` and a type `map_x` break the package.** -/
theorem map_type_clashes (le : Name → Name → Bool) : ∃ o,
    generate le "foo".toList ["x".toList] [] [] (typeNames "foo".toList [.comp 1 "map_x".toList]) = some o ∧
    "fooMapX".toList ∈ o.consts.map (·.1) ∧ "fooMapX".toList ∈ o.types.map (·.1) :=
  ⟨_, rfl, show _ ∈ ["fooMapX".toList] from List.mem_singleton.mpr rfl, show _ ∈ ["fooMapX".toList] from List.mem_singleton.mpr rfl⟩

/-- **A program named `close` breaks the package**: a field and a method of one name. -/
theorem close_clashes (le : Name → Name → Bool) : ∃ o, generate le "foo".toList [] [] ["close".toList] [] = some o ∧
    "Close".toList ∈ o.progs.map (·.1) :=
  ⟨_, rfl, show _ ∈ ["Close".toList] from List.mem_singleton.mpr rfl⟩

/-- **Names which differ in C only by case or underscores break the package.** -/
theorem fields_clash : identifier "foo_bar".toList = identifier "fooBar".toList ∧ identifier "_x".toList = identifier "x".toList := by decide

/-- An order as Go has it exists. -/
theorem order_exists : Order (fun a b => decide (a ≤ b)) where
  total a b := by simpa using List.le_total a b
  trans a b c := by simpa using fun h1 h2 => List.le_trans h1 h2
  antisymm a b := by simpa using fun h1 h2 => List.le_antisymm h1 h2

example : ∃ o, generate (fun a b => decide (a ≤ b)) "foo".toList ["my_map".toList, "array".toList] ["count".toList] ["handle_x".toList]
    (typeNames "foo".toList [.comp 1 "event".toList]) = some o ∧
    o.maps = [("Array".toList, "array".toList), ("MyMap".toList, "my_map".toList)] ∧
    (o.consts.map (·.1)) = ["fooMapArray".toList, "fooMapMyMap".toList, "fooProgHandleX".toList, "fooVarCount".toList] ∧
    o.types.map (·.1) = ["fooEvent".toList] :=
  ⟨_, rfl, rfl, rfl, rfl⟩

/-- **Only maps of the user get bindings**: a field for each map whose name doesn't begin with a dot, and none for those of data sections. -/
theorem data_sections_skipped (le : Name → Name → Bool) (ho : Order le) (stem : Name) (maps vars progs : List Name) (types : List (Ty × Name))
    (o : Out) (h : generate le stem (mapNames maps) vars progs types = some o) (n : Name) :
    (∃ p ∈ o.maps, p.2 = n) ↔ n ∈ maps ∧ ∀ s, n ≠ '.' :: s := by
  have hp := (generate_complete le ho _ _ _ _ _ _ h).1.1
  have : (∃ p ∈ o.maps, p.2 = n) ↔ n ∈ o.maps.map (·.2) := by simp [List.mem_map]
  rw [this, hp.mem_iff, mapNames, List.mem_filter]
  refine and_congr_right fun _ => ?_
  cases n with
  | nil => simp
  | cons c s =>
    simp only [List.head?_cons, ne_eq, Option.some.injEq, decide_eq_true_eq, List.cons.injEq, not_and]
    exact ⟨fun h _ e => absurd e h, fun h e => h s e rfl⟩

/-- **A type asked for twice is declared once**, and every type is declared. -/
theorem typeNames_once (stem : Name) (tys : List Ty) :
    ((typeNames stem tys).map (·.1)).Nodup ∧ ∀ t, t ∈ tys ↔ (t, stem ++ identifier (nameOf t)) ∈ typeNames stem tys := by
  have key : ∀ (l : List Ty) (acc : List (Ty × Name)), (acc.map (·.1)).Nodup →
      ((l.foldl (fun m t => if m.any (fun p => p.1 = t) then m else m ++ [(t, stem ++ identifier (typeName t))]) acc).map (·.1)).Nodup ∧
      ∀ t, (t ∈ l ∨ t ∈ acc.map (·.1)) →
        t ∈ (l.foldl (fun m t => if m.any (fun p => p.1 = t) then m else m ++ [(t, stem ++ identifier (typeName t))]) acc).map (·.1) := by
    intro l
    induction l with
    | nil => intro acc h; exact ⟨h, fun t ht => by simpa using ht⟩
    | cons t l ih =>
      intro acc h
      rw [List.foldl_cons]
      split
      · rename_i hc
        obtain ⟨i1, i2⟩ := ih acc h
        refine ⟨i1, fun t' ht' => i2 t' ?_⟩
        rcases ht' with ht' | ht'
        · rcases List.mem_cons.mp ht' with rfl | ht'
          · right
            obtain ⟨p, hp, e⟩ := List.any_eq_true.mp hc
            exact List.mem_map.mpr ⟨p, hp, of_decide_eq_true e⟩
          · exact .inl ht'
        · exact .inr ht'
      · rename_i hc
        have hn : t ∉ acc.map (·.1) := by
          intro hm
          obtain ⟨p, hp, e⟩ := List.mem_map.mp hm
          exact hc (List.any_eq_true.mpr ⟨p, hp, decide_eq_true e⟩)
        obtain ⟨i1, i2⟩ := ih (acc ++ [(t, stem ++ identifier (typeName t))]) (by
          rw [List.map_append]
          refine List.nodup_append.mpr ⟨h, by simp, ?_⟩
          intro x hx y hy e
          cases List.mem_singleton.mp hy
          rw [e] at hx
          exact hn hx)
        refine ⟨i1, fun t' ht' => i2 t' ?_⟩
        rcases ht' with ht' | ht'
        · rcases List.mem_cons.mp ht' with rfl | ht'
          · right; simp
          · exact .inl ht'
        · right; rw [List.map_append]; exact List.mem_append_left _ ht'
  obtain ⟨k1, k2⟩ := key tys [] (by simp)
  refine ⟨k1, fun t => ⟨fun ht => ?_, fun ht => (typeNames_mem stem tys _ ht).1⟩⟩
  obtain ⟨p, hp, e⟩ := List.mem_map.mp (k2 t (.inl ht))
  have := (typeNames_mem stem tys p hp).2
  have hp' : p = (t, stem ++ identifier (nameOf t)) := by
    rw [← typeName_eq, ← e]
    exact Prod.ext rfl this
  exact hp' ▸ hp

/-- **When generating succeeds**, exactly: no two types have one name, of each map and program the first letter or digit is a letter, and of a variable it is not a digit. -/
theorem generate_iff (le : Name → Name → Bool) (ho : Order le) (stem : Name) (maps vars progs : List Name) (types : List (Ty × Name)) :
    (∃ o, generate le stem maps vars progs types = some o) ↔
      types.Pairwise (fun p q => p.2 ≠ q.2) ∧
      (∀ n ∈ maps ++ progs, ∃ c, n.find? (fun c => isLetter c || isDigit c) = some c ∧ isLetter c = true) ∧
      (∀ n ∈ vars, ∀ c, n.find? (fun c => isLetter c || isDigit c) = some c → isLetter c = true) := by
  have exp : ∀ n, Exported (identifier n) → fieldOk (identifier n) = true ∧ identifier n ≠ [] := by
    intro n hn
    cases hi : identifier n with
    | nil => rw [hi] at hn; exact hn.elim
    | cons c s =>
      rw [hi] at hn
      refine ⟨?_, by simp⟩
      have hu : isUpper c = true := hn.1
      simp only [fieldOk, isUpper, isDigit, Bool.not_eq_true', Bool.and_eq_true, decide_eq_true_eq] at hu ⊢
      rw [← Bool.not_eq_true, Bool.and_eq_true, decide_eq_true_eq, decide_eq_true_eq]
      rintro ⟨_, h9⟩
      have h1 : (65 : Nat) ≤ c.toNat := hu.1
      have h2 : c.toNat ≤ 57 := h9
      omega
  have back : ∀ n, fieldOk (identifier n) = true → identifier n ≠ [] → Exported (identifier n) := by
    intro n h1 h2
    cases hi : identifier n with
    | nil => exact (h2 hi).elim
    | cons c s =>
      rw [hi] at h1
      rw [← hi]
      exact identifier_head n c s hi (by simpa [fieldOk] using h1)
  have empty : ∀ n, identifier n = [] ↔ n.find? (fun c => isLetter c || isDigit c) = none := by
    intro n
    rw [(identifier_exported n).2, List.find?_eq_none]
    constructor
    · intro h c hc; simp [(h c hc).1, (h c hc).2]
    · intro h c hc; simpa using h c hc
  unfold generate
  dsimp only
  by_cases hd : types.Pairwise (fun p q => p.2 ≠ q.2)
  · obtain ⟨r, r1, _⟩ := (sortTypes_spec le ho types).1 hd
    rw [r1]
    dsimp only
    have hmem : ∀ (l : List Name) (P : Name × Name → Prop), (∀ p ∈ (sortBy le id l).map (fun n => (identifier n, n)), P p) ↔ ∀ n ∈ l, P (identifier n, n) := by
      intro l P
      constructor
      · intro h n hn
        exact h _ (List.mem_map.mpr ⟨n, (sortBy_spec le ho id l).1.mem_iff.mpr hn, rfl⟩)
      · intro h p hp
        obtain ⟨n, hn, rfl⟩ := List.mem_map.mp hp
        exact h n ((sortBy_spec le ho id l).1.mem_iff.mp hn)
    have hcond : ((((sortBy le id maps).map (fun n => (identifier n, n)) ++ (sortBy le id progs).map (fun n => (identifier n, n))).all (fun p => fieldOk p.1 && p.1 ≠ []) &&
        ((sortBy le id vars).map (fun n => (identifier n, n))).all (fun p => fieldOk p.1)) = true) ↔
        (∀ n ∈ maps ++ progs, ∃ c, n.find? (fun c => isLetter c || isDigit c) = some c ∧ isLetter c = true) ∧
        (∀ n ∈ vars, ∀ c, n.find? (fun c => isLetter c || isDigit c) = some c → isLetter c = true) := by
      rw [Bool.and_eq_true, List.all_eq_true, List.all_eq_true, List.forall_mem_append, List.forall_mem_append, hmem, hmem, hmem]
      have a : ∀ n, (fieldOk (identifier n) && decide (identifier n ≠ [])) = true ↔ ∃ c, n.find? (fun c => isLetter c || isDigit c) = some c ∧ isLetter c = true := by
        intro n
        rw [← (identifier_exported n).1, Bool.and_eq_true, decide_eq_true_eq]
        exact ⟨fun h => back n h.1 h.2, exp n⟩
      have b : ∀ n, fieldOk (identifier n) = true ↔ ∀ c, n.find? (fun c => isLetter c || isDigit c) = some c → isLetter c = true := by
        intro n
        by_cases he : identifier n = []
        · rw [he]
          simp [fieldOk, (empty n).mp he]
        · constructor
          · intro h c hc
            obtain ⟨c', h1, h2⟩ := (identifier_exported n).1.mp (back n h he)
            rw [h1] at hc; cases hc; exact h2
          · intro h
            cases hc : n.find? (fun c => isLetter c || isDigit c) with
            | none => exact (he ((empty n).mpr hc)).elim
            | some c => exact (exp n ((identifier_exported n).1.mpr ⟨c, hc, h c hc⟩)).1
      simp only [a, b]
    split
    · rename_i h
      exact ⟨fun _ => ⟨hd, hcond.mp h⟩, fun _ => ⟨_, rfl⟩⟩
    · rename_i h
      refine ⟨fun ⟨o, ho⟩ => (by cases ho), fun hh => (h (hcond.mpr hh.2)).elim⟩
  · rw [(sortTypes_spec le ho types).2 hd]
    exact ⟨fun ⟨o, ho⟩ => (by cases ho), fun hh => (hd hh.1).elim⟩

end Ebpf.Bindings
