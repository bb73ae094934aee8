import Verif.Spec.ElfReloc
/-!
# Loading the functions of an object (towards C66)
-/
namespace Ebpf.Elf
open Ebpf.Asm Ebpf.LinkerFix Ebpf.Elf.Spec

theorem lookup_pair {α β : Type} [BEq α] [LawfulBEq α] {a : α} {b : β} : ∀ {l : List (α × β)}, l.lookup a = some b → (a, b) ∈ l
  | [], h => by cases h
  | (c, d) :: r, h => by
    rw [List.lookup_cons] at h
    by_cases hc : a = c
    · subst hc; simp only [beq_self_eq_true, Option.some.injEq] at h; subst h; exact List.mem_cons_self
    · rw [beq_eq_false_iff_ne.2 hc] at h; exact List.mem_cons_of_mem _ (lookup_pair h)

theorem lookup_nodup {α β : Type} [BEq α] [LawfulBEq α] {a : α} {b : β} : ∀ {l : List (α × β)}, (l.map (·.1)).Nodup → (a, b) ∈ l →
    l.lookup a = some b
  | (c, d) :: r, hn, h => by
    simp only [List.map_cons, List.nodup_cons] at hn
    rw [List.lookup_cons]
    by_cases hc : a = c
    · subst hc
      simp only [beq_self_eq_true, Option.some.injEq]
      rcases List.mem_cons.1 h with h | h
      · simp only [Prod.mk.injEq, true_and] at h; exact h.symm
      · exact absurd (List.mem_map.2 ⟨_, h, rfl⟩) hn.1
    · rw [beq_eq_false_iff_ne.2 hc]
      rcases List.mem_cons.1 h with h | h
      · simp only [Prod.mk.injEq] at h; exact absurd h.1 hc
      · exact lookup_nodup hn.2 h

theorem lookup_isSome {α β : Type} [BEq α] [LawfulBEq α] {a : α} {b : β} {l : List (α × β)} (h : (a, b) ∈ l) : (l.lookup a).isSome := by
  induction l with
  | nil => cases h
  | cons e r ih =>
    rw [List.lookup_cons]
    by_cases hc : a = e.1
    · simp [hc]
    · rw [beq_eq_false_iff_ne.2 hc]
      rcases List.mem_cons.1 h with h | h
      · rw [← h] at hc; exact absurd rfl hc
      · exact ih h

/-! ## sections -/

/-- What `readSecs` gives. -/
theorem readSecs_spec (o : Object) : ∀ (t : List (Nat × RawSec)) (l : List (Nat × Sec)), readSecs o t = .ok l →
    l.map (·.1) = t.map (·.1) ∧ (∀ k r, (k, r) ∈ t → ∃ s, readSec o k r = .ok s ∧ (k, s) ∈ l) ∧
    (∀ k s, (k, s) ∈ l → ∃ r, (k, r) ∈ t ∧ readSec o k r = .ok s)
  | [], l, h => by
    simp only [readSecs, Except.ok.injEq] at h
    subst h
    refine ⟨rfl, fun k r h => by (cases h), fun k s h => by (cases h)⟩
  | (k, r) :: t, l, h => by
    unfold readSecs at h
    cases hr : readSec o k r with
    | error e => rw [hr] at h; cases h
    | ok s =>
      rw [hr] at h
      simp only at h
      cases ht : readSecs o t with
      | error e => rw [ht] at h; cases h
      | ok l' =>
        rw [ht] at h
        simp only [Except.ok.injEq] at h
        subst h
        obtain ⟨h1, h2, h3⟩ := readSecs_spec o t l' ht
        refine ⟨by simp [h1], ?_, ?_⟩
        · intro k' r' hm
          rcases List.mem_cons.1 hm with hm | hm
          · simp only [Prod.mk.injEq] at hm
            obtain ⟨rfl, rfl⟩ := hm
            exact ⟨s, hr, List.mem_cons_self⟩
          · obtain ⟨s', a, b⟩ := h2 k' r' hm
            exact ⟨s', a, List.mem_cons_of_mem _ b⟩
        · intro k' s' hm
          rcases List.mem_cons.1 hm with hm | hm
          · simp only [Prod.mk.injEq] at hm
            obtain ⟨rfl, rfl⟩ := hm
            exact ⟨r, List.mem_cons_self, hr⟩
          · obtain ⟨r', a, b⟩ := h3 k' s' hm
            exact ⟨r', List.mem_cons_of_mem _ a, b⟩

theorem readSec_spec {o : Object} {k : Nat} {r : RawSec} {s : Sec} (h : readSec o k r = .ok s) :
    s.kind = r.kind ∧ s.name = r.name ∧ s.data = r.data ∧ s.symbols = assignSymbols k r.kind o.syms [] ∧
      loadRelocs o.syms r.rels [] = .ok s.relocs ∧ ∀ e ∈ s.relocs, (o.secs.lookup e.2.sec).isSome := by
  unfold readSec at h
  cases hr : loadRelocs o.syms r.rels [] with
  | error e => rw [hr] at h; cases h
  | ok rels =>
    rw [hr] at h
    simp only at h
    by_cases hc : (rels.all fun e => (o.secs.lookup e.2.sec).isSome) = true
    · rw [if_pos hc] at h
      simp only [Except.ok.injEq] at h
      subst h
      exact ⟨rfl, rfl, rfl, rfl, rfl, List.all_eq_true.1 hc⟩
    · rw [if_neg hc] at h; cases h

/-- Relocation records become relocations. -/
theorem loadRelocs_spec (syms : List Sym) : ∀ (r : List (BitVec 64 × BitVec 32)) (acc out : List (BitVec 64 × Sym)),
    loadRelocs syms r acc = .ok out → (∀ off s, out.lookup off = some s →
      (∃ n, (off, n) ∈ r ∧ syms[(n - 1).toNat]? = some s) ∨ ((∀ n, (off, n) ∉ r) ∧ acc.lookup off = some s)) ∧
      (∀ off, out.lookup off = none → (∀ n, (off, n) ∉ r) ∧ acc.lookup off = none)
  | [], acc, out, h => by
    simp only [loadRelocs, Except.ok.injEq] at h
    subst h
    exact ⟨fun off s h => Or.inr ⟨(by intro n h; cases h), h⟩, fun off h => ⟨(by intro n h; cases h), h⟩⟩
  | (o, n) :: r, acc, out, h => by
    unfold loadRelocs at h
    cases hs : syms[(n - 1).toNat]? with
    | none => rw [hs] at h; cases h
    | some s =>
      rw [hs] at h
      obtain ⟨h1, h2⟩ := loadRelocs_spec syms r _ out h
      constructor
      · intro off t ht
        rcases h1 off t ht with ⟨m, hm, hh⟩ | ⟨hm, hh⟩
        · exact Or.inl ⟨m, List.mem_cons_of_mem _ hm, hh⟩
        · rw [List.lookup_cons] at hh
          by_cases he : off = o
          · subst he
            simp only [beq_self_eq_true, Option.some.injEq] at hh
            subst hh
            exact Or.inl ⟨n, List.mem_cons_self, hs⟩
          · rw [beq_eq_false_iff_ne.2 he] at hh
            refine Or.inr ⟨?_, hh⟩
            intro m hm'
            rcases List.mem_cons.1 hm' with h' | h'
            · simp only [Prod.mk.injEq] at h'; exact he h'.1
            · exact hm m h'
      · intro off ho
        obtain ⟨a, b⟩ := h2 off ho
        rw [List.lookup_cons] at b
        by_cases he : off = o
        · subst he; simp at b
        · rw [beq_eq_false_iff_ne.2 he] at b
          refine ⟨?_, b⟩
          intro m hm'
          rcases List.mem_cons.1 hm' with h' | h'
          · simp only [Prod.mk.injEq] at h'; exact he h'.1
          · exact a m h'

/-! ## symbols -/

/-- Symbols of a section come from the symbol table. -/
theorem assignSymbols_sound (idx : Nat) (k : Kind) : ∀ (syms : List Sym) (acc : List (BitVec 64 × Sym)) (o : BitVec 64) (s : Sym),
    (assignSymbols idx k syms acc).lookup o = some s →
    (s ∈ syms ∧ s.sec = idx ∧ s.name ≠ "" ∧ keepSymbol k s = true ∧ s.value = o) ∨ acc.lookup o = some s
  | [], acc, o, s, h => Or.inr h
  | t :: r, acc, o, s, h => by
    unfold assignSymbols at h
    by_cases hk : t.sec = idx ∧ t.name ≠ "" ∧ keepSymbol k t
    · rw [if_pos hk] at h
      rcases assignSymbols_sound idx k r _ o s h with ⟨a, b⟩ | b
      · exact Or.inl ⟨List.mem_cons_of_mem _ a, b⟩
      · rw [List.lookup_cons] at b
        by_cases he : o = t.value
        · subst he
          simp only [beq_self_eq_true, Option.some.injEq] at b
          subst b
          exact Or.inl ⟨List.mem_cons_self, hk.1, hk.2.1, hk.2.2, rfl⟩
        · rw [beq_eq_false_iff_ne.2 he] at b
          exact Or.inr b
    · rw [if_neg hk] at h
      rcases assignSymbols_sound idx k r _ o s h with ⟨a, b⟩ | b
      · exact Or.inl ⟨List.mem_cons_of_mem _ a, b⟩
      · exact Or.inr b

/-- Every offset with a symbol has an entry. -/
theorem assignSymbols_some (idx : Nat) (k : Kind) : ∀ (syms : List Sym) (acc : List (BitVec 64 × Sym)) (o : BitVec 64),
    ((∃ s ∈ syms, s.sec = idx ∧ s.name ≠ "" ∧ keepSymbol k s = true ∧ s.value = o) ∨ (acc.lookup o).isSome) →
    ((assignSymbols idx k syms acc).lookup o).isSome
  | [], acc, o, h => by
    rcases h with ⟨s, h, _⟩ | h
    · cases h
    · exact h
  | t :: r, acc, o, h => by
    unfold assignSymbols
    by_cases hk : t.sec = idx ∧ t.name ≠ "" ∧ keepSymbol k t
    · rw [if_pos hk]
      apply assignSymbols_some
      rcases h with ⟨s, h, hs⟩ | h
      · rcases List.mem_cons.1 h with h | h
        · subst h
          right
          rw [List.lookup_cons, hs.2.2.2]
          simp
        · exact Or.inl ⟨s, h, hs⟩
      · right
        rw [List.lookup_cons]
        cases (o == t.value) with
        | true => rfl
        | false => exact h
    · rw [if_neg hk]
      apply assignSymbols_some
      rcases h with ⟨s, h, hs⟩ | h
      · rcases List.mem_cons.1 h with h | h
        · subst h
          exact absurd ⟨hs.1, hs.2.1, hs.2.2.1⟩ hk
        · exact Or.inl ⟨s, h, hs⟩
      · exact Or.inr h

/-- `insertByOffset` replaces or adds one entry. -/
theorem mem_insertByOffset (e : BitVec 64 × Sym) : ∀ (l : List (BitVec 64 × Sym)), (l.map (fun x => x.1.toNat)).Pairwise (· < ·) →
    ((insertByOffset e l).map (fun x => x.1.toNat)).Pairwise (· < ·) ∧ ∀ x, x ∈ insertByOffset e l ↔ x = e ∨ (x ∈ l ∧ x.1 ≠ e.1)
  | [], _ => by
    simp [insertByOffset]
  | f :: r, h => by
    simp only [List.map_cons, List.pairwise_cons, List.mem_map, forall_exists_index, and_imp, forall_apply_eq_imp_iff₂] at h
    unfold insertByOffset
    by_cases h1 : e.1 = f.1
    · rw [if_pos h1]
      constructor
      · simp only [List.map_cons, List.pairwise_cons, List.mem_map, forall_exists_index, and_imp, forall_apply_eq_imp_iff₂]
        rw [h1]; exact h
      · intro x
        simp only [List.mem_cons]
        constructor
        · rintro (h' | h')
          · exact Or.inl h'
          · refine Or.inr ⟨Or.inr h', ?_⟩
            intro he
            have := h.1 x h'
            rw [he, h1] at this
            omega
        · rintro (h' | ⟨h' | h', he⟩)
          · exact Or.inl h'
          · subst h'; exact absurd h1.symm he
          · exact Or.inr h'
    · rw [if_neg h1]
      have hne : e.1.toNat ≠ f.1.toNat := fun hh => h1 (BitVec.eq_of_toNat_eq hh)
      by_cases h2 : e.1.toNat < f.1.toNat
      · rw [if_pos h2]
        constructor
        · simp only [List.map_cons, List.pairwise_cons, List.mem_cons, List.mem_map, forall_eq_or_imp, forall_exists_index, and_imp,
            forall_apply_eq_imp_iff₂]
          refine ⟨⟨h2, ?_⟩, h⟩
          intro x hx
          have := h.1 x hx
          omega
        · intro x
          simp only [List.mem_cons]
          constructor
          · rintro (h' | h' | h')
            · exact Or.inl h'
            · subst h'; exact Or.inr ⟨Or.inl rfl, fun h => h1 h.symm⟩
            · refine Or.inr ⟨Or.inr h', ?_⟩
              intro he
              have := h.1 x h'
              rw [he] at this
              omega
          · rintro (h' | ⟨h' | h', he⟩)
            · exact Or.inl h'
            · exact Or.inr (Or.inl h')
            · exact Or.inr (Or.inr h')
      · rw [if_neg h2]
        obtain ⟨i1, i2⟩ := mem_insertByOffset e r h.2
        constructor
        · simp only [List.map_cons, List.pairwise_cons, List.mem_map, forall_exists_index, and_imp, forall_apply_eq_imp_iff₂]
          refine ⟨?_, i1⟩
          intro x hx
          rcases (i2 x).1 hx with h' | ⟨h', _⟩
          · subst h'; omega
          · exact h.1 x h'
        · intro x
          simp only [List.mem_cons, i2]
          constructor
          · rintro (h' | h' | ⟨h', he⟩)
            · subst h'; exact Or.inr ⟨Or.inl rfl, fun h => h1 h.symm⟩
            · exact Or.inl h'
            · exact Or.inr ⟨Or.inr h', he⟩
          · rintro (h' | ⟨h' | h', he⟩)
            · exact Or.inr (Or.inl h')
            · exact Or.inl h'
            · exact Or.inr (Or.inr ⟨h', he⟩)

theorem mem_symbolsSorted : ∀ (l : List (BitVec 64 × Sym)), ((symbolsSorted l).map (fun x => x.1.toNat)).Pairwise (· < ·) ∧
    ∀ o s, (o, s) ∈ symbolsSorted l ↔ l.lookup o = some s
  | [] => by simp [symbolsSorted]
  | e :: r => by
    obtain ⟨h1, h2⟩ := mem_symbolsSorted r
    obtain ⟨i1, i2⟩ := mem_insertByOffset e (symbolsSorted r) h1
    refine ⟨i1, ?_⟩
    intro o s
    unfold symbolsSorted
    rw [i2, h2, List.lookup_cons]
    by_cases he : o = e.1
    · subst he
      simp only [beq_self_eq_true, Option.some.injEq, ne_eq, not_true_eq_false, and_false, or_false]
      constructor
      · intro h; rw [← h]
      · intro h; rw [← h]
    · rw [beq_eq_false_iff_ne.2 he]
      simp only [ne_eq, he, not_false_eq_true, and_true]
      constructor
      · rintro (h | h)
        · rw [← h] at he; exact absurd rfl he
        · exact h
      · exact Or.inr

/-! ## functions -/

/-- What the loop over symbols gives. -/
theorem loadSyms_spec (ec : Code) (bo : ByteOrder) (sec : Sec) : ∀ (l : List (BitVec 64 × Sym)) (progs out : List (String × List LIns)),
    loadSyms ec bo sec l progs = .ok out → (progs.map (·.1)).Nodup →
    (out.map (·.1)).Nodup ∧ (∀ o s, (o, s) ∈ l → ∃ f, loadFunction ec bo sec s = .ok f ∧ (s.name, f) ∈ out) ∧
      (∀ n f, (n, f) ∈ progs → (n, f) ∈ out) ∧
      (∀ n f, (n, f) ∈ out → (n, f) ∈ progs ∨ ∃ o s, (o, s) ∈ l ∧ s.name = n ∧ loadFunction ec bo sec s = .ok f)
  | [], progs, out, h, hn => by
    simp only [loadSyms, Except.ok.injEq] at h
    subst h
    exact ⟨hn, (by intro o s h; cases h), fun n f h => h, fun n f h => Or.inl h⟩
  | (o, s) :: r, progs, out, h, hn => by
    unfold loadSyms at h
    by_cases hd : (progs.lookup s.name).isSome = true
    · rw [if_pos hd] at h; cases h
    · rw [if_neg hd] at h
      cases hf : loadFunction ec bo sec s with
      | error e => rw [hf] at h; cases h
      | ok f =>
        rw [hf] at h
        simp only at h
        have hn' : ((progs ++ [(s.name, f)]).map (·.1)).Nodup := by
          rw [List.map_append, List.nodup_append]
          refine ⟨hn, by simp, ?_⟩
          intro a ha b hb
          simp only [List.map_cons, List.map_nil, List.mem_singleton] at hb
          subst hb
          rintro rfl
          obtain ⟨⟨x, y⟩, hx, hxa⟩ := List.mem_map.1 ha
          simp only at hxa
          subst hxa
          exact hd (lookup_isSome hx)
        obtain ⟨i1, i2, i3, i4⟩ := loadSyms_spec ec bo sec r _ out h hn'
        refine ⟨i1, ?_, ?_, ?_⟩
        · intro o' s' hm
          rcases List.mem_cons.1 hm with hm | hm
          · simp only [Prod.mk.injEq] at hm
            obtain ⟨rfl, rfl⟩ := hm
            exact ⟨f, hf, i3 _ _ (by simp)⟩
          · exact i2 o' s' hm
        · intro n f' hm
          exact i3 n f' (List.mem_append_left _ hm)
        · intro n f' hm
          rcases i4 n f' hm with h' | ⟨o', s', h', h''⟩
          · rcases List.mem_append.1 h' with h' | h'
            · exact Or.inl h'
            · simp only [List.mem_singleton, Prod.mk.injEq] at h'
              obtain ⟨rfl, rfl⟩ := h'
              exact Or.inr ⟨o, s, List.mem_cons_self, rfl, hf⟩
          · exact Or.inr ⟨o', s', List.mem_cons_of_mem _ h', h''⟩

theorem addFunctions_spec (x : Bool) : ∀ (l : List (String × List LIns)) (acc out : List (String × Bool × List LIns)),
    addFunctions x l acc = .ok out → (acc.map (·.1)).Nodup →
    (out.map (·.1)).Nodup ∧ (∀ n f, (n, f) ∈ l → (n, x, f) ∈ out) ∧ (∀ e, e ∈ acc → e ∈ out) ∧
      (∀ n y f, (n, y, f) ∈ out → (n, y, f) ∈ acc ∨ (y = x ∧ (n, f) ∈ l))
  | [], acc, out, h, hn => by
    simp only [addFunctions, Except.ok.injEq] at h
    subst h
    exact ⟨hn, (by intro n f h; cases h), fun e h => h, fun n y f h => Or.inl h⟩
  | (n, f) :: r, acc, out, h, hn => by
    unfold addFunctions at h
    by_cases hd : (acc.lookup n).isSome = true
    · rw [if_pos hd] at h; cases h
    · rw [if_neg hd] at h
      have hn' : ((acc ++ [(n, x, f)]).map (·.1)).Nodup := by
        rw [List.map_append, List.nodup_append]
        refine ⟨hn, by simp, ?_⟩
        intro a ha b hb
        simp only [List.map_cons, List.map_nil, List.mem_singleton] at hb
        subst hb
        rintro rfl
        obtain ⟨⟨x, y⟩, hx, hxa⟩ := List.mem_map.1 ha
        simp only at hxa
        subst hxa
        exact hd (lookup_isSome hx)
      obtain ⟨i1, i2, i3, i4⟩ := addFunctions_spec x r _ out h hn'
      refine ⟨i1, ?_, ?_, ?_⟩
      · intro n' f' hm
        rcases List.mem_cons.1 hm with hm | hm
        · simp only [Prod.mk.injEq] at hm
          obtain ⟨rfl, rfl⟩ := hm
          exact i3 _ (by simp)
        · exact i2 n' f' hm
      · intro e he
        exact i3 e (List.mem_append_left _ he)
      · intro n' y f' hm
        rcases i4 n' y f' hm with h' | ⟨h', h''⟩
        · rcases List.mem_append.1 h' with h' | h'
          · exact Or.inl h'
          · simp only [List.mem_singleton, Prod.mk.injEq] at h'
            obtain ⟨rfl, rfl, rfl⟩ := h'
            exact Or.inr ⟨rfl, List.mem_cons_self⟩
        · exact Or.inr ⟨h', List.mem_cons_of_mem _ h''⟩

/-- What the loop over sections gives. -/
theorem loadSections_spec (ec : Code) (bo : ByteOrder) : ∀ (l : List Sec) (acc out : List (String × Bool × List LIns)),
    loadSections ec bo l acc = .ok out → (acc.map (·.1)).Nodup →
    (out.map (·.1)).Nodup ∧
      (∀ sec ∈ l, sec.kind = .program → ∀ o s, sec.symbols.lookup o = some s →
        ∃ f, loadFunction ec bo sec s = .ok f ∧ (s.name, decide (sec.name ≠ ".text"), f) ∈ out) ∧
      (∀ e, e ∈ acc → e ∈ out) ∧
      (∀ n y f, (n, y, f) ∈ out → (n, y, f) ∈ acc ∨
        ∃ sec ∈ l, ∃ o s, sec.kind = .program ∧ y = decide (sec.name ≠ ".text") ∧ sec.symbols.lookup o = some s ∧ s.name = n ∧
          loadFunction ec bo sec s = .ok f)
  | [], acc, out, h, hn => by
    simp only [loadSections, Except.ok.injEq] at h
    subst h
    exact ⟨hn, (by intro n h; cases h), fun e h => h, fun n y f h => Or.inl h⟩
  | sec :: r, acc, out, h, hn => by
    unfold loadSections at h
    by_cases hk : sec.kind ≠ .program
    · rw [if_pos hk] at h
      obtain ⟨i1, i2, i3, i4⟩ := loadSections_spec ec bo r acc out h hn
      refine ⟨i1, ?_, i3, ?_⟩
      · intro sec' hm hk'
        rcases List.mem_cons.1 hm with hm | hm
        · subst hm; exact absurd hk' hk
        · exact i2 sec' hm hk'
      · intro n y f hm
        rcases i4 n y f hm with h' | ⟨sec', h', h''⟩
        · exact Or.inl h'
        · exact Or.inr ⟨sec', List.mem_cons_of_mem _ h', h''⟩
    · rw [if_neg hk] at h
      have hk : sec.kind = .program := by
        cases hh : sec.kind <;> simp_all
      by_cases hs : sec.symbols = []
      · rw [if_pos hs] at h; cases h
      · rw [if_neg hs] at h
        cases hf : loadFunctions ec bo sec with
        | error e => rw [hf] at h; cases h
        | ok fs =>
          rw [hf] at h
          simp only at h
          cases ha : addFunctions (sec.name ≠ ".text") fs acc with
          | error e => rw [ha] at h; cases h
          | ok acc' =>
            rw [ha] at h
            simp only at h
            obtain ⟨a1, a2, a3, a4⟩ := addFunctions_spec _ fs acc acc' ha hn
            obtain ⟨i1, i2, i3, i4⟩ := loadSections_spec ec bo r acc' out h a1
            unfold loadFunctions at hf
            obtain ⟨s1, s2, s3, s4⟩ := loadSyms_spec ec bo sec _ [] fs hf (by simp)
            refine ⟨i1, ?_, fun e he => i3 e (a3 e he), ?_⟩
            · intro sec' hm hk' o s hl
              rcases List.mem_cons.1 hm with hm | hm
              · subst hm
                obtain ⟨f, h1, h2⟩ := s2 o s (((mem_symbolsSorted _).2 o s).2 hl)
                exact ⟨f, h1, i3 _ (a2 _ _ h2)⟩
              · exact i2 sec' hm hk' o s hl
            · intro n y f hm
              rcases i4 n y f hm with h' | ⟨sec', h', h''⟩
              · rcases a4 n y f h' with h' | ⟨hy, h'⟩
                · exact Or.inl h'
                · rcases s4 n f h' with h' | ⟨o, s, h', hn', hf'⟩
                  · cases h'
                  · exact Or.inr ⟨sec, List.mem_cons_self, o, s, hk, hy, ((mem_symbolsSorted _).2 o s).1 h', hn', hf'⟩
              · exact Or.inr ⟨sec', List.mem_cons_of_mem _ h', h''⟩

/-! ## instructions -/

/-- The loop over instructions, element by element. -/
theorem resolveAll_spec (ec : Code) (sec : Sec) : ∀ (l : List LIns) (off : BitVec 64) (out : List LIns), resolveAll ec sec off l = .ok out →
    out.length = l.length ∧ ∀ (n : Nat) (i : LIns), l[n]? = some i → ∃ j : LIns, out[n]? = some j ∧
      resolveOne ec sec (off + BitVec.ofNat 64 (offsetOf (l.map (·.p.ins)) n)) i = .ok j
  | [], off, out, h => by
    simp only [resolveAll, Except.ok.injEq] at h
    subst h
    exact ⟨rfl, by intro n i h; simp at h⟩
  | i :: r, off, out, h => by
    unfold resolveAll at h
    cases h1 : resolveOne ec sec off i with
    | error e => rw [h1] at h; cases h
    | ok j =>
      rw [h1] at h
      simp only at h
      cases h2 : resolveAll ec sec (off + 8#64 * BitVec.ofNat 64 i.p.ins.width) r with
      | error e => rw [h2] at h; cases h
      | ok js =>
        rw [h2] at h
        simp only [Except.ok.injEq] at h
        subst h
        obtain ⟨a, b⟩ := resolveAll_spec ec sec r _ js h2
        refine ⟨by simp [a], ?_⟩
        intro n i' hi
        cases n with
        | zero =>
          simp only [List.getElem?_cons_zero, Option.some.injEq] at hi
          subst hi
          refine ⟨j, rfl, ?_⟩
          simpa [offsetOf] using h1
        | succ n =>
          simp only [List.getElem?_cons_succ] at hi
          obtain ⟨j', hj, he⟩ := b n i' hi
          refine ⟨j', by simpa using hj, ?_⟩
          have : off + 8#64 * BitVec.ofNat 64 i.p.ins.width + BitVec.ofNat 64 (offsetOf (r.map (·.p.ins)) n) =
              off + BitVec.ofNat 64 (offsetOf ((i :: r).map (·.p.ins)) (n + 1)) := by
            unfold offsetOf
            simp only [List.map_cons, List.take_succ_cons, List.sum_cons, Nat.mul_add]
            rw [BitVec.ofNat_add, BitVec.add_assoc, BitVec.ofNat_mul, BitVec.ofNat_mul]
          rw [← this]
          exact he

end Ebpf.Elf
