import Verif.Model.Linker
import Verif.Spec.Linker
import Verif.Props.References
set_option linter.unusedSimpArgs false
/-!
# C11: linking pulls in exactly the reachable functions, once
-/
namespace Ebpf.Linker
open Ebpf.Asm
open Spec

theorem mem_insertSorted (s x : String) (l : List String) : x ∈ insertSorted s l ↔ x = s ∨ x ∈ l := by
  induction l with
  | nil => simp [insertSorted]
  | cons t r ih => unfold insertSorted; split <;> grind

theorem insertSorted_length (s : String) (l : List String) : (insertSorted s l).length = l.length + 1 := by
  induction l with
  | nil => simp [insertSorted]
  | cons t r ih => unfold insertSorted; split <;> grind

theorem isCall_iff (i : PIns) (b : String) : (isCall i = true ∧ i.ref = b) ↔ References i b := by
  unfold isCall References Ins.isFunctionReference Ins.isFunctionCall Ins.isLoadOfFunctionPointer
    OpCode.isDWordLoad Ins.PseudoCall Ins.PseudoFunc Call
  rw [toInt_m1_64]
  simp only [Bool.and_eq_true, beq_iff_eq, bne_iff_ne, ne_eq, Bool.or_eq_true]
  constructor
  · rintro ⟨⟨⟨h1, h2⟩, h3⟩, rfl⟩; exact ⟨rfl, h2, h1, h3⟩
  · rintro ⟨rfl, h2, h1, h3⟩; exact ⟨⟨⟨h1, h2⟩, h3⟩, rfl⟩

theorem mem_functionReferences (p : List PIns) (b : String) :
    b ∈ functionReferences p ↔ ∃ i ∈ p, References i b := by
  induction p with
  | nil => simp [functionReferences]
  | cons i r ih =>
    have hi := isCall_iff i b
    unfold functionReferences
    simp only [List.mem_cons, exists_eq_or_imp]
    rw [← hi, ← ih]
    by_cases hc : isCall i = true
    · rw [if_pos hc]
      by_cases hm : (functionReferences r).contains i.ref = true
      · rw [if_pos hm]; simp only [List.contains_iff_mem] at hm; grind
      · rw [if_neg hm, mem_insertSorted]; grind
    · rw [if_neg hc]; grind

/-- The references of a program are a set: sorted, without duplicates. -/
theorem functionReferences_sorted (p : List PIns) : (functionReferences p).Pairwise (· < ·) := by
  have ins : ∀ (s : String) (l : List String), l.Pairwise (· < ·) → s ∉ l →
      (insertSorted s l).Pairwise (· < ·) := by
    intro s l
    induction l with
    | nil => intro _ _; simp [insertSorted]
    | cons t r ih =>
      intro h hn
      unfold insertSorted
      rw [List.pairwise_cons] at h
      by_cases hlt : s < t
      · rw [if_pos hlt, List.pairwise_cons, List.pairwise_cons]
        refine ⟨?_, h⟩
        intro a ha
        rcases List.mem_cons.1 ha with rfl | ha
        · exact hlt
        · exact String.lt_trans hlt (h.1 a ha)
      · rw [if_neg hlt, List.pairwise_cons]
        refine ⟨?_, ih h.2 (fun hm => hn (List.mem_cons_of_mem _ hm))⟩
        intro a ha
        rcases (mem_insertSorted s a r).1 ha with rfl | ha
        · have hne : t ≠ a := fun e => hn (e ▸ List.mem_cons_self)
          have hle : t ≤ a := String.not_lt.1 hlt
          rcases Classical.em (t < a) with h' | h'
          · exact h'
          · exact absurd (String.le_antisymm hle (String.not_lt.1 h')) hne
        · exact h.1 a ha
  induction p with
  | nil => simp [functionReferences]
  | cons i r ih =>
    unfold functionReferences
    by_cases hc : isCall i = true
    · rw [if_pos hc]
      by_cases hm : (functionReferences r).contains i.ref = true
      · rw [if_pos hm]; exact ih
      · rw [if_neg hm]; exact ins _ _ ih (by simpa using hm)
    · rw [if_neg hc]; exact ih

/-- Pushes still possible: the references of the programs not linked yet. -/
def remaining (progs : Progs) (linked : List String) : Nat :=
  ((progs.filter (fun e => !linked.contains e.1)).map (fun e => (functionReferences e.2).length)).sum

theorem remaining_link (progs : Progs) (linked : List String) (ref : String) (p : List PIns)
    (hl : progs.lookup ref = some p) (hn : ref ∉ linked) :
    remaining progs (ref :: linked) + (functionReferences p).length ≤ remaining progs linked := by
  have mono : ∀ ps : Progs, remaining ps (ref :: linked) ≤ remaining ps linked := by
    intro ps
    induction ps with
    | nil => simp [remaining]
    | cons e r ih =>
      unfold remaining at ih ⊢
      simp only [List.filter_cons]
      by_cases h1 : e.1 ∈ linked
      · simp [h1] at ih ⊢; exact ih
      · by_cases h2 : e.1 = ref
        · simp [h1, h2] at ih ⊢; simp [hn]; omega
        · simp [h1, h2] at ih ⊢; omega
  induction progs with
  | nil => simp at hl
  | cons e r ih =>
    obtain ⟨k, v⟩ := e
    rw [List.lookup_cons] at hl
    by_cases hk : ref = k
    · subst hk
      simp at hl
      subst hl
      have := mono r
      unfold remaining at this ⊢
      simp [hn] at this ⊢
      omega
    · have hb : (ref == k) = false := by simpa using hk
      rw [hb] at hl
      have := ih hl
      unfold remaining at this ⊢
      simp only [List.filter_cons]
      by_cases h1 : k ∈ linked
      · simp [h1] at this ⊢; exact this
      · have hk' : ¬ k = ref := fun h => hk h.symm
        simp [h1, hk'] at this ⊢; omega

theorem linkLoop_end (progs : Progs) (root : String) (p : List PIns) (n : Nat) (linked : List String) (insns : List PIns)
    (hnd : linked.Nodup)
    (hl : ∀ x ∈ linked, Reach progs root x ∧ (progs.lookup x).isSome)
    (hr : ∀ x, Calls progs root x → x ∈ ([] : List String) ∨ x ∈ linked ∨ progs.lookup x = none)
    (hcl : ∀ y ∈ linked, ∀ x, Calls progs y x → x ∈ ([] : List String) ∨ x ∈ linked ∨ progs.lookup x = none)
    (hi : insns = p ++ bodies progs linked.reverse) :
    ∃ names : List String, linkLoop progs n [] linked insns = some (p ++ bodies progs names) ∧
        names.Nodup ∧ ∀ x, x ∈ names ↔ (Reach progs root x ∧ (progs.lookup x).isSome) := by
  refine ⟨linked.reverse, by unfold linkLoop; rw [hi], List.pairwise_reverse.2 (hnd.imp Ne.symm), ?_⟩
  intro x
  rw [List.mem_reverse]
  constructor
  · exact hl x
  · rintro ⟨h, hs⟩
    have key : ∀ y, Reach progs root y → (progs.lookup y).isSome → y ∈ linked := by
      intro y hy
      induction hy with
      | one hc =>
        intro hs
        rcases hr _ hc with h | h | h
        · cases h
        · exact h
        · simp [h] at hs
      | more hy hc ih =>
        intro hs
        obtain ⟨q, hq, _⟩ := hc
        rcases hcl _ (ih (by rw [hq]; rfl)) _ ⟨q, hq, by assumption⟩ with h | h | h
        · cases h
        · exact h
        · simp [h] at hs
    exact key x h hs

/-- The invariant of the loop: `linked` (reversed) is the list of functions appended so far. -/
theorem linkLoop_spec (progs : Progs) (root : String) (p : List PIns) :
    ∀ (n : Nat) (pending linked : List String) (insns : List PIns),
      pending.length + remaining progs linked ≤ n →
      linked.Nodup →
      (∀ x ∈ linked, Reach progs root x ∧ (progs.lookup x).isSome) →
      (∀ x ∈ pending, Reach progs root x) →
      (∀ x, Calls progs root x → x ∈ pending ∨ x ∈ linked ∨ progs.lookup x = none) →
      (∀ y ∈ linked, ∀ x, Calls progs y x → x ∈ pending ∨ x ∈ linked ∨ progs.lookup x = none) →
      insns = p ++ bodies progs linked.reverse →
      ∃ names : List String, linkLoop progs n pending linked insns = some (p ++ bodies progs names) ∧
        names.Nodup ∧ ∀ x, x ∈ names ↔ (Reach progs root x ∧ (progs.lookup x).isSome) := by
  intro n
  induction n with
  | zero =>
    intro pending linked insns hb hnd hl hpend hr hcl hi
    match pending, hb, hpend, hr, hcl with
    | [], _, _, hr, hcl =>
      exact linkLoop_end progs root p _ linked insns hnd hl hr hcl hi
    | a :: r, hb, _, _, _ => simp at hb
  | succ n ih =>
    intro pending linked insns hb hnd hl hpend hr hcl hi
    match pending, hb, hpend, hr, hcl with
    | [], _, _, hr, hcl =>
      exact linkLoop_end progs root p _ linked insns hnd hl hr hcl hi
    | ref :: pending, hb, hpend, hr, hcl =>
      unfold linkLoop
      simp only [List.length_cons] at hb
      by_cases hmem : ref ∈ linked
      · rw [if_pos (by simpa using hmem)]
        apply ih pending linked insns (by omega) hnd hl (fun x hx => hpend x (List.mem_cons_of_mem _ hx)) _ _ hi
        · intro x hx; rcases hr x hx with h | h | h
          · rcases List.mem_cons.1 h with rfl | h
            · exact Or.inr (Or.inl hmem)
            · exact Or.inl h
          · exact Or.inr (Or.inl h)
          · exact Or.inr (Or.inr h)
        · intro y hy x hx; rcases hcl y hy x hx with h | h | h
          · rcases List.mem_cons.1 h with rfl | h
            · exact Or.inr (Or.inl hmem)
            · exact Or.inl h
          · exact Or.inr (Or.inl h)
          · exact Or.inr (Or.inr h)
      · rw [if_neg (by simpa using hmem)]
        cases hlk : progs.lookup ref with
        | none =>
          simp only
          apply ih pending linked insns (by omega) hnd hl (fun x hx => hpend x (List.mem_cons_of_mem _ hx)) _ _ hi
          · intro x hx; rcases hr x hx with h | h | h
            · rcases List.mem_cons.1 h with rfl | h
              · exact Or.inr (Or.inr hlk)
              · exact Or.inl h
            · exact Or.inr (Or.inl h)
            · exact Or.inr (Or.inr h)
          · intro y hy x hx; rcases hcl y hy x hx with h | h | h
            · rcases List.mem_cons.1 h with rfl | h
              · exact Or.inr (Or.inr hlk)
              · exact Or.inl h
            · exact Or.inr (Or.inl h)
            · exact Or.inr (Or.inr h)
        | some q =>
          simp only
          have hrem := remaining_link progs linked ref q hlk hmem
          have hreach : Reach progs root ref := hpend ref List.mem_cons_self
          apply ih (pending ++ functionReferences q) (ref :: linked) (insns ++ q)
          · rw [List.length_append]; omega
          · exact List.nodup_cons.2 ⟨hmem, hnd⟩
          · intro x hx
            rcases List.mem_cons.1 hx with rfl | hx
            · exact ⟨hreach, by rw [hlk]; rfl⟩
            · exact hl x hx
          · intro x hx
            rcases List.mem_append.1 hx with hx | hx
            · exact hpend x (List.mem_cons_of_mem _ hx)
            · exact Reach.more hreach ⟨q, hlk, (mem_functionReferences q x).1 hx⟩
          · intro x hx
            rcases hr x hx with h | h | h
            · rcases List.mem_cons.1 h with rfl | h
              · exact Or.inr (Or.inl List.mem_cons_self)
              · exact Or.inl (List.mem_append_left _ h)
            · exact Or.inr (Or.inl (List.mem_cons_of_mem _ h))
            · exact Or.inr (Or.inr h)
          · intro y hy x hx
            rcases List.mem_cons.1 hy with rfl | hy
            · obtain ⟨q', hq', hi'⟩ := hx
              rw [hlk] at hq'; injection hq' with hq'; subst hq'
              exact Or.inl (List.mem_append_right _ ((mem_functionReferences _ x).2 hi'))
            · rcases hcl y hy x hx with h | h | h
              · rcases List.mem_cons.1 h with rfl | h
                · exact Or.inr (Or.inl List.mem_cons_self)
                · exact Or.inl (List.mem_append_left _ h)
              · exact Or.inr (Or.inl (List.mem_cons_of_mem _ h))
              · exact Or.inr (Or.inr h)
          · rw [hi, List.reverse_cons]
            unfold bodies
            simp [hlk, List.append_assoc]

theorem lookup_refs_le (progs : Progs) (name : String) (p : List PIns) (h : progs.lookup name = some p) :
    (functionReferences p).length ≤ (progs.map (fun e => (functionReferences e.2).length)).sum := by
  induction progs with
  | nil => simp at h
  | cons e r ih =>
    obtain ⟨k, v⟩ := e
    rw [List.lookup_cons] at h
    by_cases hk : name = k
    · subst hk; simp at h; subst h; simp
    · have hb : (name == k) = false := by simpa using hk
      rw [hb] at h
      have := ih h
      simp; omega

theorem remaining_le (progs : Progs) : remaining progs [] ≤
    (progs.map (fun e => (functionReferences e.2).length)).sum := by
  unfold remaining
  rw [List.filter_eq_self.2 (by intro a _; simp)]
  exact Nat.le_refl _

/-- **C11.** For every call graph, flattening a known program ends, and the result is the program
itself followed by the bodies of exactly the functions reachable through references that exist in the
object (references without a body are extern functions), each of them once. -/
theorem flatten_exact (progs : Progs) (name : String) (p : List PIns) (hp : progs.lookup name = some p) :
    ∃ names : List String, flattenInstructions progs name = some (p ++ bodies progs names) ∧
      names.Nodup ∧ ∀ x, x ∈ names ↔ (Reach progs name x ∧ (progs.lookup x).isSome) := by
  unfold flattenInstructions
  rw [hp]
  simp only
  by_cases hr : functionReferences p = []
  · rw [if_pos hr]
    refine ⟨[], by simp [bodies], List.nodup_nil, ?_⟩
    intro x
    constructor
    · intro h; cases h
    rintro ⟨h, _⟩
    exfalso
    have nocall : ∀ y, ¬ Calls progs name y := by
      rintro y ⟨q, hq, hi⟩
      rw [hp] at hq; injection hq with hq; subst hq
      have := (mem_functionReferences p y).2 hi
      rw [hr] at this; cases this
    clear hr
    have : ∀ y, Reach progs name y → False := by
      intro y hy
      induction hy with
      | one hc => exact nocall _ hc
      | more _ _ ih => exact ih
    exact this x h
  · rw [if_neg hr]
    apply linkLoop_spec progs name p
    · have := lookup_refs_le progs name p hp
      have := remaining_le progs
      unfold budget; omega
    · exact List.nodup_nil
    · intro x hx; cases hx
    · intro x hx; exact Reach.one ⟨p, hp, (mem_functionReferences p x).1 hx⟩
    · rintro x ⟨q, hq, hi⟩
      rw [hp] at hq; injection hq with hq; subst hq
      exact Or.inl ((mem_functionReferences _ x).2 hi)
    · intro y hy; cases hy
    · simp [bodies]

theorem lookup_assign (progs : Progs) (name n : String) (q : List PIns) :
    (assignInsns progs name q).lookup n =
      if n = name then (progs.lookup n).map (fun _ => q) else progs.lookup n := by
  induction progs with
  | nil => simp [assignInsns]
  | cons e r ih =>
    obtain ⟨k, v⟩ := e
    unfold assignInsns at ih ⊢
    simp only [List.map_cons]
    by_cases hk : k = name
    · subst hk
      simp only [if_true, List.lookup_cons]
      by_cases hn : n = k
      · subst hn; simp
      · have hb : (n == k) = false := by simpa using hn
        rw [hb, ih, if_neg hn]
    · simp only [if_neg hk, List.lookup_cons]
      by_cases hn : n = k
      · subst hn; simp [hk]
      · have hb : (n == k) = false := by simpa using hn
        rw [hb, ih]

theorem flattenAll_some (progs : Progs) (names : List String) (l : List (String × List PIns))
    (h : flattenAll progs names = some l) :
    l.map (·.1) = names ∧ ∀ e ∈ l, flattenInstructions progs e.1 = some e.2 := by
  induction names generalizing l with
  | nil => simp [flattenAll] at h; subst h; simp
  | cons n r ih =>
    unfold flattenAll at h
    cases h1 : flattenInstructions progs n with
    | none => rw [h1] at h; simp at h
    | some p =>
      cases h2 : flattenAll progs r with
      | none => rw [h1, h2] at h; simp at h
      | some rest =>
        rw [h1, h2] at h; simp at h; subst h
        obtain ⟨ha, hb⟩ := ih rest h2
        refine ⟨by simp [ha], ?_⟩
        intro e he
        rcases List.mem_cons.1 he with rfl | he
        · exact h1
        · exact hb e he

theorem foldl_assign (progs : Progs) : ∀ (l : List (String × List PIns)) (ps : Progs),
    (∀ e ∈ l, flattenInstructions progs e.1 = some e.2) → (∀ n, (ps.lookup n).isSome = (progs.lookup n).isSome) →
    ∀ n, (l.foldl (fun ps e => assignInsns ps e.1 e.2) ps).lookup n =
      if n ∈ l.map (·.1) then flattenInstructions progs n else ps.lookup n := by
  intro l
  induction l with
  | nil => intro ps _ _ n; simp
  | cons e r ih =>
    intro ps hl hps n
    simp only [List.foldl_cons, List.map_cons]
    rw [ih _ (fun x hx => hl x (List.mem_cons_of_mem _ hx))]
    · by_cases hr : n ∈ r.map (·.1)
      · rw [if_pos hr, if_pos (List.mem_cons_of_mem _ hr)]
      · rw [if_neg hr, lookup_assign]
        by_cases hn : n = e.1
        · subst hn
          rw [if_pos rfl, if_pos List.mem_cons_self]
          have hsome := hl e List.mem_cons_self
          rw [hsome]
          have h1 : (ps.lookup e.1).isSome := by
            rw [hps]
            unfold flattenInstructions at hsome
            cases hh : progs.lookup e.1 with
            | none => rw [hh] at hsome; simp at hsome
            | some _ => rfl
          obtain ⟨v, hv⟩ := Option.isSome_iff_exists.1 h1
          rw [hv]; rfl
        · rw [if_neg hn, if_neg (by simp [hn] at hr ⊢; exact hr)]
    · intro m
      rw [lookup_assign]
      by_cases hm : m = e.1
      · rw [if_pos hm]; rw [Option.isSome_map]; exact hps m
      · rw [if_neg hm]; exact hps m

/-- **C11.** Linking a set of programs flattens each of them from the original bodies, no matter in
which order they are listed, and leaves every other function unchanged. -/
theorem flattenPrograms_exact (progs : Progs) (names : List String)
    (hn : ∀ n ∈ names, (progs.lookup n).isSome) :
    ∃ ps, flattenPrograms progs names = some ps ∧
      ∀ n p, progs.lookup n = some p →
        (n ∉ names → ps.lookup n = some p) ∧
        (n ∈ names → ∃ deps : List String, ps.lookup n = some (p ++ bodies progs deps) ∧ deps.Nodup ∧
          ∀ x, x ∈ deps ↔ (Reach progs n x ∧ (progs.lookup x).isSome)) := by
  have hall : ∃ l, flattenAll progs names = some l := by
    induction names with
    | nil => exact ⟨[], rfl⟩
    | cons n r ih =>
      obtain ⟨l, hl⟩ := ih (fun x hx => hn x (List.mem_cons_of_mem _ hx))
      obtain ⟨p, hp⟩ := Option.isSome_iff_exists.1 (hn n List.mem_cons_self)
      obtain ⟨d, hd, _⟩ := flatten_exact progs n p hp
      exact ⟨_, by unfold flattenAll; rw [hd, hl]⟩
  obtain ⟨l, hl⟩ := hall
  obtain ⟨hmap, hfl⟩ := flattenAll_some progs names l hl
  unfold flattenPrograms
  rw [hl]
  refine ⟨_, rfl, ?_⟩
  intro n p hp
  rw [foldl_assign progs l progs hfl (fun _ => rfl) n, hmap]
  refine ⟨fun h => by rw [if_neg h]; exact hp, fun h => ?_⟩
  rw [if_pos h]
  obtain ⟨d, hd, h1, h2⟩ := flatten_exact progs n p hp
  exact ⟨d, hd, h1, h2⟩

/-- The symbols defined by a list of instructions. -/
def symbolsOf (p : List PIns) : List String := p.filterMap (fun i => if i.sym = "" then none else some i.sym)

theorem mem_symbolsOf (p : List PIns) (s : String) : s ∈ symbolsOf p ↔ s ≠ "" ∧ ∃ i ∈ p, i.sym = s := by
  unfold symbolsOf
  rw [List.mem_filterMap]
  constructor
  · rintro ⟨i, hi, h⟩
    by_cases h0 : i.sym = ""
    · rw [if_pos h0] at h; cases h
    · rw [if_neg h0] at h; injection h with h; exact ⟨h ▸ h0, i, hi, h⟩
  · rintro ⟨h0, i, hi, rfl⟩
    exact ⟨i, hi, by rw [if_neg h0]⟩

theorem symbolsOf_append (p q : List PIns) : symbolsOf (p ++ q) = symbolsOf p ++ symbolsOf q := by
  unfold symbolsOf; rw [List.filterMap_append]

theorem bodies_cons (progs : Progs) (n : String) (r : List String) :
    bodies progs (n :: r) = (progs.lookup n).getD [] ++ bodies progs r := by
  unfold bodies; simp

theorem mem_bodies (progs : Progs) (names : List String) (i : PIns) :
    i ∈ bodies progs names ↔ ∃ n ∈ names, ∃ q, progs.lookup n = some q ∧ i ∈ q := by
  induction names with
  | nil => simp [bodies]
  | cons n r ih =>
    rw [bodies_cons, List.mem_append, ih]
    simp only [List.mem_cons, exists_eq_or_imp]
    cases progs.lookup n <;> simp

theorem bodies_symbols_nodup (progs : Progs)
    (hnd : ∀ n p, progs.lookup n = some p → (symbolsOf p).Nodup)
    (hdis : ∀ n m p q s, progs.lookup n = some p → progs.lookup m = some q → n ≠ m → s ∈ symbolsOf p → s ∉ symbolsOf q) :
    ∀ names : List String, names.Nodup → (symbolsOf (bodies progs names)).Nodup := by
  intro names
  induction names with
  | nil => intro _; simp [bodies, symbolsOf]
  | cons n r ih =>
    intro h
    rw [List.nodup_cons] at h
    rw [bodies_cons, symbolsOf_append, List.nodup_append]
    cases hn : progs.lookup n with
    | none => exact ⟨by simp [symbolsOf], ih h.2, by simp [symbolsOf]⟩
    | some p =>
      refine ⟨hnd n p hn, ih h.2, ?_⟩
      intro a ha b hb hab
      subst hab
      obtain ⟨h0, i, hi, hs⟩ := (mem_symbolsOf _ _).1 hb
      obtain ⟨m, hm, q, hq, hiq⟩ := (mem_bodies progs r i).1 hi
      exact hdis n m p q a hn hq (fun e => h.1 (e ▸ hm)) ha ((mem_symbolsOf _ _).2 ⟨h0, i, hiq, hs⟩)

theorem encodeRef_ok (syms : List (String × Nat)) (i : PIns) (off : Nat)
    (h : i.ref ≠ "" → (i.ins.isConstRef = true ∨ i.ins.isOffRef = true) → (syms.lookup i.ref).isSome) :
    ∃ j, encodeRef syms off i = .ok j := by
  unfold encodeRef
  by_cases h0 : i.ref = ""
  · exact ⟨_, if_pos h0⟩
  · rw [if_neg h0]
    by_cases h1 : i.ins.isConstRef = true
    · rw [if_pos h1]
      obtain ⟨x, hx⟩ := Option.isSome_iff_exists.1 (h h0 (Or.inl h1))
      rw [hx]; exact ⟨_, rfl⟩
    · rw [if_neg h1]
      by_cases h2 : i.ins.isOffRef = true
      · rw [if_pos h2]
        obtain ⟨x, hx⟩ := Option.isSome_iff_exists.1 (h h0 (Or.inr h2))
        rw [hx]; exact ⟨_, rfl⟩
      · rw [if_neg h2]; exact ⟨_, rfl⟩

theorem encodeRefs_ok (syms : List (String × Nat)) (p : List PIns) (off : Nat)
    (h : ∀ i ∈ p, i.ref ≠ "" → (i.ins.isConstRef = true ∨ i.ins.isOffRef = true) → (syms.lookup i.ref).isSome) :
    ∃ r, encodeRefs syms p off = .ok r := by
  induction p generalizing off with
  | nil => exact ⟨[], rfl⟩
  | cons i r ih =>
    unfold encodeRefs
    obtain ⟨j, hj⟩ := encodeRef_ok syms i off (h i List.mem_cons_self)
    obtain ⟨r', hr⟩ := ih (off + i.ins.width) (fun x hx => h x (List.mem_cons_of_mem _ hx))
    rw [hj, hr]
    exact ⟨_, rfl⟩

/-- Encoding the references succeeds when symbols are unique and every reference has one. -/
theorem encodeFunctionReferences_ok (p : List PIns) (hn : (symbolsOf p).Nodup)
    (h : ∀ i ∈ p, i.ref ≠ "" → (WantsImm i.ins ∨ WantsOff i.ins) → ∃ x ∈ p, x.sym = i.ref) :
    ∃ r, encodeFunctionReferences p = .ok r := by
  obtain ⟨syms, hs⟩ := (symbolOffsets_nodup p 0 []).2 ⟨hn, by intro _ _ _; rfl⟩
  unfold encodeFunctionReferences
  rw [hs]
  apply encodeRefs_ok
  intro i hi hr hw
  have hw' : WantsImm i.ins ∨ WantsOff i.ins := by
    rw [isConstRef_iff, isOffRef_iff] at hw
    rcases hw with hw | hw
    · exact Or.inl hw
    · rcases Classical.em (WantsImm i.ins) with h | h
      · exact Or.inl h
      · exact Or.inr ⟨hw.1, hw.2, h⟩
  obtain ⟨x, hx, hxs⟩ := h i hi hr hw'
  rw [symbolOffsets_spec p 0 [] syms hs i.ref hr]
  simp only [List.lookup_nil]
  rw [Option.isSome_map]
  rw [List.findIdx?_isSome]
  rw [List.any_eq_true]
  exact ⟨x, hx, by simpa using hxs⟩

/-- **C11, C06.** Linking does its job: in an object where every function defines its own name,
symbols are not defined twice, and every reference of a function is either to a symbol in that
function or to a function of the object, a program that is not (mutually) recursive links to an
instruction stream in which every reference is resolved and encodable. -/
theorem flatten_links (progs : Progs) (name : String) (p q : List PIns) (hp : progs.lookup name = some p)
    (hdef : ∀ n p, progs.lookup n = some p → ∃ i ∈ p, i.sym = n)
    (hnd : ∀ n p, progs.lookup n = some p → (symbolsOf p).Nodup)
    (hdis : ∀ n m p q s, progs.lookup n = some p → progs.lookup m = some q → n ≠ m → s ∈ symbolsOf p → s ∉ symbolsOf q)
    (hrefs : ∀ n p, progs.lookup n = some p → ∀ i ∈ p, i.ref ≠ "" → (WantsImm i.ins ∨ WantsOff i.ins) →
      (∃ x ∈ p, x.sym = i.ref) ∨ (References i i.ref ∧ (progs.lookup i.ref).isSome))
    (hnorec : ¬ Reach progs name name)
    (hq : flattenInstructions progs name = some q) :
    ∃ r, encodeFunctionReferences q = .ok r := by
  obtain ⟨names, hf, hN, hmem⟩ := flatten_exact progs name p hp
  rw [hf] at hq; injection hq with hq; subst hq
  have hroot : name ∉ names := fun h => hnorec ((hmem name).1 h).1
  have heq : p ++ bodies progs names = bodies progs (name :: names) := by rw [bodies_cons, hp]; rfl
  rw [heq]
  have hN' : (name :: names).Nodup := List.nodup_cons.2 ⟨hroot, hN⟩
  apply encodeFunctionReferences_ok
  · exact bodies_symbols_nodup progs hnd hdis _ hN'
  · intro i hi hr hw
    obtain ⟨n, hn, q, hq, hiq⟩ := (mem_bodies progs _ i).1 hi
    rcases hrefs n q hq i hiq hr hw with ⟨x, hx, hxs⟩ | ⟨hcall, hsome⟩
    · exact ⟨x, (mem_bodies progs _ x).2 ⟨n, hn, q, hq, hx⟩, hxs⟩
    · have hc : Calls progs n i.ref := ⟨q, hq, i, hiq, hcall⟩
      have hreach : Reach progs name i.ref := by
        rcases List.mem_cons.1 hn with rfl | hn
        · exact Reach.one hc
        · exact Reach.more ((hmem n).1 hn).1 hc
      obtain ⟨t, ht⟩ := Option.isSome_iff_exists.1 hsome
      obtain ⟨x, hx, hxs⟩ := hdef _ t ht
      exact ⟨x, (mem_bodies progs _ x).2 ⟨i.ref, List.mem_cons_of_mem _ ((hmem _).2 ⟨hreach, hsome⟩), t, ht, hx⟩, hxs⟩

/-- **C11.** A recursive program still links, but its own body is then there twice: first, and once
more among the dependencies. Because its symbol is defined twice, encoding it always fails, it is
never loaded with calls going to the wrong copy. -/
theorem flatten_recursive (progs : Progs) (name : String) (p q : List PIns) (hp : progs.lookup name = some p)
    (hdef : ∃ i ∈ p, i.sym = name) (hne : name ≠ "") (hrec : Reach progs name name)
    (hq : flattenInstructions progs name = some q) :
    ∃ e, encodeFunctionReferences q = .error e := by
  obtain ⟨names, hf, hN, hmem⟩ := flatten_exact progs name p hp
  rw [hf] at hq; injection hq with hq; subst hq
  have hroot : name ∈ names := (hmem name).2 ⟨hrec, by rw [hp]; rfl⟩
  obtain ⟨i, hi, hs⟩ := hdef
  cases h : encodeFunctionReferences (p ++ bodies progs names) with
  | error e => exact ⟨e, rfl⟩
  | ok r =>
    exfalso
    have hb : i ∈ bodies progs names := (mem_bodies progs names i).2 ⟨name, hroot, p, hp, hi⟩
    obtain ⟨a, ha, hae⟩ := List.getElem_of_mem hi
    obtain ⟨b, hb, hbe⟩ := List.getElem_of_mem hb
    have h1 : (p ++ bodies progs names)[a]? = some i := by
      rw [List.getElem?_append_left ha, List.getElem?_eq_getElem ha, hae]
    have h2 : (p ++ bodies progs names)[p.length + b]? = some i := by
      rw [List.getElem?_append_right (by omega)]
      rw [Nat.add_sub_cancel_left, List.getElem?_eq_getElem hb, hbe]
    obtain ⟨e, he⟩ := duplicate_symbol_rejected _ a (p.length + b) i i (by omega) h1 h2 rfl (by rw [hs]; exact hne)
    rw [h] at he; cases he

/-- A call instruction to `b`. -/
def callTo (b : String) : PIns := { ins := ⟨0x85#32, 0#8, 1#8, 0#16, BitVec.allOnes 64⟩, ref := b }
/-- `exit`, possibly with a symbol. -/
def exitIns (s : String := "") : PIns := { ins := ⟨0x95#32, 0#8, 0#8, 0#16, 0#64⟩, sym := s }
/-- A function with the given calls. -/
def func (n : String) (calls : List String) : String × List PIns := (n, exitIns n :: calls.map callTo)

/-- A diamond with an extern callee and a cycle between `c` and `d`; `u` is unreachable. -/
def exProgs : Progs :=
  [func "a" ["c", "b", "ext"], func "b" ["d"], func "c" ["d"], func "d" ["c"], func "u" ["a"]]

/-- The diamond: `d` once, `u` and the extern function not at all. -/
example : flattenInstructions exProgs "a" = some ((func "a" ["c", "b", "ext"]).2 ++ (func "b" ["d"]).2
    ++ (func "c" ["d"]).2 ++ (func "d" ["c"]).2) := by decide +kernel
/-- `c` is recursive: its body is appended once more. -/
example : flattenInstructions exProgs "c" = some ((func "c" ["d"]).2 ++ (func "d" ["c"]).2 ++ (func "c" ["d"]).2) := by
  decide +kernel
example : Reach exProgs "c" "c" := by
  have h1 : Calls exProgs "c" "d" := ⟨_, rfl, callTo "d", by decide, by unfold References; decide⟩
  have h2 : Calls exProgs "d" "c" := ⟨_, rfl, callTo "c", by decide, by unfold References; decide⟩
  exact Reach.more (Reach.one h1) h2

/-- An object that meets all hypotheses of `flatten_links`. -/
def exObj : Progs := [func "m" ["f", "g"], func "f" ["g"], func "g" []]

theorem lookup_mem (progs : Progs) (n : String) (p : List PIns) (h : progs.lookup n = some p) : (n, p) ∈ progs := by
  induction progs with
  | nil => simp at h
  | cons e r ih =>
    obtain ⟨k, v⟩ := e
    rw [List.lookup_cons] at h
    by_cases hk : n = k
    · subst hk; simp at h; subst h; exact List.mem_cons_self
    · have hb : (n == k) = false := by simpa using hk
      rw [hb] at h; exact List.mem_cons_of_mem _ (ih h)

theorem exObj_reach : ∀ y, Reach exObj "m" y → y = "f" ∨ y = "g" := by
  have calls : ∀ a y, Calls exObj a y → y = "f" ∨ y = "g" := by
    rintro a y ⟨p, hp, hi⟩
    have hb := (mem_functionReferences p y).2 hi
    have hm := lookup_mem _ _ _ hp
    have key : ∀ e ∈ exObj, ∀ y ∈ functionReferences e.2, y = "f" ∨ y = "g" := by decide +kernel
    exact key _ hm y hb
  intro y hy
  cases hy with
  | one h => exact calls _ _ h
  | more _ h => exact calls _ _ h

example : ∃ q r, flattenInstructions exObj "m" = some q ∧ q.length = 6 ∧ encodeFunctionReferences q = .ok r := by
  have hq : flattenInstructions exObj "m" = some (exObj.map (·.2)).flatten := by decide +kernel
  have h := flatten_links exObj "m" _ _ rfl
    (by intro n p h; have := lookup_mem _ _ _ h; revert this
        have key : ∀ e ∈ exObj, ∃ i ∈ e.2, i.sym = e.1 := by decide +kernel
        exact key (n, p))
    (by intro n p h; have := lookup_mem _ _ _ h; revert this
        have key : ∀ e ∈ exObj, (symbolsOf e.2).Nodup := by decide +kernel
        exact key (n, p))
    (by intro n m p q s hn hm
        have h1 := lookup_mem _ _ _ hn
        have h2 := lookup_mem _ _ _ hm
        have key : ∀ e ∈ exObj, ∀ f ∈ exObj, e.1 ≠ f.1 → ∀ s ∈ symbolsOf e.2, s ∉ symbolsOf f.2 := by decide +kernel
        intro hne hs; exact key _ h1 _ h2 hne s hs)
    (by intro n p h i hi hr hw
        have h1 := lookup_mem _ _ _ h
        have key : ∀ e ∈ exObj, ∀ i ∈ e.2, i.ref ≠ "" → i.ref ∈ functionReferences [i] ∧ (exObj.lookup i.ref).isSome := by decide +kernel
        obtain ⟨h2, h3⟩ := key _ h1 i hi hr
        obtain ⟨j, hj, hj'⟩ := (mem_functionReferences _ _).1 h2
        simp only [List.mem_singleton] at hj; subst hj
        exact Or.inr ⟨hj', h3⟩)
    (by intro h; rcases exObj_reach _ h with h | h <;> exact absurd h (by decide))
    hq
  obtain ⟨r, hr⟩ := h
  exact ⟨_, r, hq, rfl, hr⟩

end Ebpf.Linker
