import Verif.Model.Assign
import Verif.Spec.Assign
/-!
# C87: objects assigned to the fields of a struct
-/
namespace Ebpf.Assign
open Ebpf.AssignSpec

section
variable (a : Nat) (s : Bool) (inner : Nat → Bool → Option (Except Err (List F)))

theorem loop_none : ∀ (l : List Fld) (i : Nat), (∀ f ∈ l, f.tag = "" → ∀ b, f.kind = .struct b ∨ f.kind = .ptr (some b) → inner b (below s f) ≠ none) →
    fieldsLoop a s inner i l ≠ none := by
  intro l
  induction l with
  | nil => intro i _; simp [fieldsLoop]
  | cons f r ih =>
    intro i h
    have hr := ih (i + 1) (fun g hg => h g (by simp [hg]))
    have hf := h f (by simp)
    unfold fieldsLoop
    split
    · split <;> simp_all
    · rename_i ht
      have ht : f.tag = "" := by simpa using ht
      split <;> rename_i hk
      · exact hr
      · simp
      all_goals
        rename_i b
        have := hf ht b (by simp [hk])
        split
        · split <;> simp_all
        · assumption

theorem loop_ok : ∀ (l : List Fld) (i : Nat) (fs : List F), fieldsLoop a s inner i l = some (.ok fs) →
    (∀ x, x ∈ fs ↔ (∃ (j : Nat) (f : Fld), l[j]? = some f ∧ f.tag ≠ "" ∧ x = ⟨(a, i + j), f.tag, f.typ, !s && f.exported⟩) ∨
      (∃ (f : Fld) (b : Nat) (gs : List F), f ∈ l ∧ f.tag = "" ∧ (f.kind = .struct b ∨ f.kind = .ptr (some b)) ∧ inner b (below s f) = some (.ok gs) ∧ x ∈ gs)) ∧
    (∀ f ∈ l, f.tag = "" → f.kind ≠ .ptr none ∧ ∀ b, f.kind = .struct b ∨ f.kind = .ptr (some b) → ∃ gs, inner b (below s f) = some (.ok gs)) := by
  intro l
  induction l with
  | nil => intro i fs h; simp [fieldsLoop] at h; subst h; simp
  | cons f r ih =>
    intro i fs h
    unfold fieldsLoop at h
    have shift : ∀ x, (∃ (j : Nat) (g : Fld), (f :: r)[j]? = some g ∧ g.tag ≠ "" ∧ x = (⟨(a, i + j), g.tag, g.typ, !s && g.exported⟩ : F)) ↔
        (f.tag ≠ "" ∧ x = ⟨(a, i), f.tag, f.typ, !s && f.exported⟩) ∨
        (∃ (j : Nat) (g : Fld), r[j]? = some g ∧ g.tag ≠ "" ∧ x = (⟨(a, i + 1 + j), g.tag, g.typ, !s && g.exported⟩ : F)) := by
      intro x
      constructor
      · rintro ⟨j, g, h1, h2, h3⟩
        cases j with
        | zero => simp at h1; subst h1; exact Or.inl ⟨h2, h3⟩
        | succ j => exact Or.inr ⟨j, g, by simpa using h1, h2, by rw [h3]; simp; omega⟩
      · rintro (⟨h1, h2⟩ | ⟨j, g, h1, h2, h3⟩)
        · exact ⟨0, f, rfl, h1, h2⟩
        · exact ⟨j + 1, g, by simpa using h1, h2, by rw [h3]; simp; omega⟩
    split at h
    · rename_i ht
      split at h
      · rename_i fs' hfs
        simp only [Option.some.injEq, Except.ok.injEq] at h
        subst h
        obtain ⟨h1, h2⟩ := ih _ _ hfs
        refine ⟨fun x => ?_, ?_⟩
        · rw [shift, List.mem_cons, h1]
          simp only [ht, ne_eq, not_false_eq_true, true_and, List.mem_cons]
          constructor
          · rintro (h | h | ⟨g, b, gs, h3, h4⟩)
            · exact Or.inl (Or.inl h)
            · exact Or.inl (Or.inr h)
            · exact Or.inr ⟨g, b, gs, Or.inr h3, h4⟩
          · rintro ((h | h) | ⟨g, b, gs, h3 | h3, h4, h5⟩)
            · exact Or.inl h
            · exact Or.inr (Or.inl h)
            · subst h3; exact absurd h4 ht
            · exact Or.inr (Or.inr ⟨g, b, gs, h3, h4, h5⟩)
        · intro g hg htg
          rcases List.mem_cons.mp hg with rfl | hg
          · exact absurd htg ht
          · exact h2 g hg htg
      · rename_i hn; exact absurd h (by intro hc; exact hn _ hc)
    · rename_i ht
      have ht : f.tag = "" := by simpa using ht
      split at h
      · rename_i hk
        obtain ⟨h1, h2⟩ := ih _ _ h
        refine ⟨fun x => ?_, ?_⟩
        · rw [shift, h1]
          simp only [ht, ne_eq, not_true_eq_false, false_and, false_or, List.mem_cons]
          constructor
          · rintro (h | ⟨g, b, gs, h3, h4⟩)
            · exact Or.inl h
            · exact Or.inr ⟨g, b, gs, Or.inr h3, h4⟩
          · rintro (h | ⟨g, b, gs, h3 | h3, h4, h5, h6⟩)
            · exact Or.inl h
            · subst h3; rw [hk] at h5; simp at h5
            · exact Or.inr ⟨g, b, gs, h3, h4, h5, h6⟩
        · intro g hg htg
          rcases List.mem_cons.mp hg with rfl | hg
          · rw [hk]; simp
          · exact h2 g hg htg
      · simp at h
      all_goals
        rename_i b hk
        split at h
        · rename_i gs hgs
          split at h
          · rename_i fs' hfs
            simp only [Option.some.injEq, Except.ok.injEq] at h
            subst h
            obtain ⟨h1, h2⟩ := ih _ _ hfs
            refine ⟨fun x => ?_, ?_⟩
            · rw [shift, List.mem_append, h1]
              simp only [ht, ne_eq, not_true_eq_false, false_and, false_or, List.mem_cons]
              constructor
              · rintro (h | h | ⟨g, b, gs, h3, h4⟩)
                · exact Or.inr ⟨f, b, gs, Or.inl rfl, ht, by simp [hk], hgs, h⟩
                · exact Or.inl h
                · exact Or.inr ⟨g, b, gs, Or.inr h3, h4⟩
              · rintro (h | ⟨g, b', gs', h3 | h3, h4, h5, h6, h7⟩)
                · exact Or.inr (Or.inl h)
                · subst h3
                  rw [hk] at h5
                  simp at h5
                  subst h5
                  rw [hgs] at h6
                  simp at h6
                  subst h6
                  exact Or.inl h7
                · exact Or.inr (Or.inr ⟨g, b', gs', h3, h4, h5, h6, h7⟩)
            · intro g hg htg
              rcases List.mem_cons.mp hg with rfl | hg
              · rw [hk]
                refine ⟨by simp, fun b' hb => ?_⟩
                simp at hb
                subst hb
                exact ⟨gs, hgs⟩
              · exact h2 g hg htg
          · rename_i hn; exact absurd h (by intro hc; exact hn _ hc)
        · rename_i hn; exact absurd h (by intro hc; exact hn _ hc)

theorem loop_err : ∀ (l : List Fld) (i : Nat) (e : Err), fieldsLoop a s inner i l = some (.error e) →
    (e = .nilPtr ∧ ∃ f ∈ l, f.tag = "" ∧ f.kind = .ptr none) ∨
    (∃ f ∈ l, ∃ b, f.tag = "" ∧ (f.kind = .struct b ∨ f.kind = .ptr (some b)) ∧ inner b (below s f) = some (.error e)) := by
  intro l
  induction l with
  | nil => intro i e h; simp [fieldsLoop] at h
  | cons f r ih =>
    intro i e h
    unfold fieldsLoop at h
    have lift : ((e = .nilPtr ∧ ∃ f ∈ r, f.tag = "" ∧ f.kind = .ptr none) ∨
        (∃ f ∈ r, ∃ b, f.tag = "" ∧ (f.kind = .struct b ∨ f.kind = .ptr (some b)) ∧ inner b (below s f) = some (.error e))) →
      ((e = .nilPtr ∧ ∃ g ∈ f :: r, g.tag = "" ∧ g.kind = .ptr none) ∨
        (∃ g ∈ f :: r, ∃ b, g.tag = "" ∧ (g.kind = .struct b ∨ g.kind = .ptr (some b)) ∧ inner b (below s g) = some (.error e))) := by
      rintro (⟨h1, g, h2, h3⟩ | ⟨g, h1, h2⟩)
      · exact Or.inl ⟨h1, g, by simp [h2], h3⟩
      · exact Or.inr ⟨g, by simp [h1], h2⟩
    split at h
    · split at h
      · simp at h
      · exact lift (ih _ _ h)
    · rename_i ht
      have ht : f.tag = "" := by simpa using ht
      split at h
      · exact lift (ih _ _ h)
      · rename_i hk
        simp at h
        exact Or.inl ⟨h.symm, f, by simp, ht, hk⟩
      all_goals
        rename_i b hk
        split at h
        · split at h
          · simp at h
          · exact lift (ih _ _ h)
        · exact Or.inr ⟨f, by simp, b, ht, by simp [hk], h⟩
end

theorem fields_gen (h : Nat → Strct) : ∀ (n a : Nat) (s : Bool) (fs : List F), ebpfFields h [] n a s = some (.ok fs) →
    (∀ x, x ∈ fs ↔ ∃ s', ∃ f : Fld, Reach h a s x.loc.1 s' ∧ (h x.loc.1).fields[x.loc.2]? = some f ∧ f.tag ≠ "" ∧ x.typ = f.typ ∧ x.tag = f.tag ∧ x.settable = (!s' && f.exported)) ∧
    (¬∃ c s', ∃ (i : Nat) (f : Fld), Reach h a s c s' ∧ (h c).fields[i]? = some f ∧ f.tag = "" ∧ f.kind = .ptr none) := by
  intro n
  induction n with
  | zero => intro a s fs h; simp [ebpfFields] at h
  | succ n ih =>
    intro a s fs hs
    simp only [ebpfFields, List.contains_nil, Bool.false_eq_true, if_false] at hs
    obtain ⟨h1, h2⟩ := loop_ok _ _ _ _ _ _ hs
    refine ⟨fun x => ?_, ?_⟩
    · rw [h1]
      constructor
      · rintro (⟨j, f, h3, h4, h5⟩ | ⟨f, b, gs, h3, h4, h5, h6, h7⟩)
        · subst h5
          exact ⟨s, f, Reach.here a s, by simpa using h3, h4, rfl, rfl, rfl⟩
        · obtain ⟨i, hi⟩ := List.mem_iff_getElem?.mp h3
          obtain ⟨s', g, hr, hg⟩ := ((ih _ _ _ h6).1 x).mp h7
          exact ⟨s', g, Reach.step a s i f b _ s' hi h4 h5 hr, hg⟩
      · rintro ⟨s', f, hr, h3, h4, h5, h6, h7⟩
        cases hr with
        | here =>
          refine Or.inl ⟨x.loc.2, f, h3, h4, ?_⟩
          cases x
          simp_all
        | step _ _ i g b _ _ hi ht hk hr =>
          refine Or.inr ?_
          obtain ⟨gs, hgs⟩ := (h2 g (List.mem_iff_getElem?.mpr ⟨i, hi⟩) ht).2 b hk
          exact ⟨g, b, gs, List.mem_iff_getElem?.mpr ⟨i, hi⟩, ht, hk, hgs, ((ih _ _ _ hgs).1 x).mpr ⟨s', f, hr, h3, h4, h5, h6, h7⟩⟩
    · rintro ⟨c, s', j, f, hr, h3, h4, h5⟩
      cases hr with
      | here => exact (h2 f (List.mem_iff_getElem?.mpr ⟨j, h3⟩) h4).1 h5
      | step _ _ i g b _ _ hi ht hk hr =>
        obtain ⟨gs, hgs⟩ := (h2 g (List.mem_iff_getElem?.mpr ⟨i, hi⟩) ht).2 b hk
        exact (ih _ _ _ hgs).2 ⟨c, s', j, f, hr, h3, h4, h5⟩

theorem fields_err (h : Nat → Strct) : ∀ (n a : Nat) (s : Bool) (e : Err), ebpfFields h [] n a s = some (.error e) →
    e = .nilPtr ∧ ∃ c s', ∃ (i : Nat) (f : Fld), Reach h a s c s' ∧ (h c).fields[i]? = some f ∧ f.tag = "" ∧ f.kind = .ptr none := by
  intro n
  induction n with
  | zero => intro a s e h; simp [ebpfFields] at h
  | succ n ih =>
    intro a s e hs
    simp only [ebpfFields, List.contains_nil, Bool.false_eq_true, if_false] at hs
    rcases loop_err _ _ _ _ _ _ hs with ⟨h1, f, h2, h3, h4⟩ | ⟨f, h2, b, h3, h4, h5⟩
    · obtain ⟨i, hi⟩ := List.mem_iff_getElem?.mp h2
      exact ⟨h1, a, s, i, f, Reach.here a s, hi, h3, h4⟩
    · obtain ⟨i, hi⟩ := List.mem_iff_getElem?.mp h2
      obtain ⟨he, c, s', j, g, hr, hg⟩ := ih _ _ _ h5
      exact ⟨he, c, s', j, g, Reach.step a s i f b c s' hi h3 h4 hr, hg⟩

theorem fields_some (h : Nat → Strct) (rank : Nat → Nat)
    (hr : ∀ a (i : Nat) (f : Fld) b, (h a).fields[i]? = some f → f.tag = "" → f.kind = .struct b ∨ f.kind = .ptr (some b) → rank b < rank a) :
    ∀ (n a : Nat) (s : Bool), rank a < n → ebpfFields h [] n a s ≠ none := by
  intro n
  induction n with
  | zero => intro a s hn; omega
  | succ n ih =>
    intro a s hn
    simp only [ebpfFields, List.contains_nil, Bool.false_eq_true, if_false]
    apply loop_none
    intro f hf ht b hk
    obtain ⟨i, hi⟩ := List.mem_iff_getElem?.mp hf
    have := hr a i f b hi ht hk
    exact ih b _ (by omega)

/-! ### Paths -/

theorem loop_paths (h : Nat → Strct) (a : Nat) (s : Bool) (inner : Nat → Bool → Option (Except Err (List F)))
    (hin : ∀ b s' gs, inner b s' = some (.ok gs) → ∃ ps : List (F × List Nat), ps.map (·.1) = gs ∧ (ps.map (·.2)).Nodup ∧ ∀ x p, (x, p) ∈ ps ↔ Occ h b s' p x) :
    ∀ (l : List Fld) (i : Nat) (fs : List F), fieldsLoop a s inner i l = some (.ok fs) →
    ∃ ps : List (F × List Nat), ps.map (·.1) = fs ∧ (ps.map (·.2)).Nodup ∧ ∀ x p, (x, p) ∈ ps ↔
      ∃ (j : Nat) (f : Fld), l[j]? = some f ∧ ((f.tag ≠ "" ∧ p = [i + j] ∧ x = ⟨(a, i + j), f.tag, f.typ, !s && f.exported⟩) ∨
        (f.tag = "" ∧ ∃ b q, (f.kind = .struct b ∨ f.kind = .ptr (some b)) ∧ p = (i + j) :: q ∧ Occ h b (below s f) q x)) := by
  intro l
  induction l with
  | nil => intro i fs h; simp [fieldsLoop] at h; subst h; exact ⟨[], rfl, by simp, by simp⟩
  | cons f r ih =>
    intro i fs hl
    unfold fieldsLoop at hl
    have shift : ∀ x p, (∃ (j : Nat) (g : Fld), (f :: r)[j]? = some g ∧ ((g.tag ≠ "" ∧ p = [i + j] ∧ x = (⟨(a, i + j), g.tag, g.typ, !s && g.exported⟩ : F)) ∨
          (g.tag = "" ∧ ∃ b q, (g.kind = .struct b ∨ g.kind = .ptr (some b)) ∧ p = (i + j) :: q ∧ Occ h b (below s g) q x))) ↔
        ((f.tag ≠ "" ∧ p = [i] ∧ x = (⟨(a, i), f.tag, f.typ, !s && f.exported⟩ : F)) ∨
          (f.tag = "" ∧ ∃ b q, (f.kind = .struct b ∨ f.kind = .ptr (some b)) ∧ p = i :: q ∧ Occ h b (below s f) q x)) ∨
        (∃ (j : Nat) (g : Fld), r[j]? = some g ∧ ((g.tag ≠ "" ∧ p = [i + 1 + j] ∧ x = (⟨(a, i + 1 + j), g.tag, g.typ, !s && g.exported⟩ : F)) ∨
          (g.tag = "" ∧ ∃ b q, (g.kind = .struct b ∨ g.kind = .ptr (some b)) ∧ p = (i + 1 + j) :: q ∧ Occ h b (below s g) q x))) := by
      intro x p
      constructor
      · rintro ⟨j, g, h1, h2⟩
        cases j with
        | zero => simp at h1; subst h1; exact Or.inl h2
        | succ j =>
          refine Or.inr ⟨j, g, by simpa using h1, ?_⟩
          have e : i + 1 + j = i + (j + 1) := by omega
          rw [e]; exact h2
      · rintro (h2 | ⟨j, g, h1, h2⟩)
        · exact ⟨0, f, rfl, h2⟩
        · refine ⟨j + 1, g, by simpa using h1, ?_⟩
          have e : i + 1 + j = i + (j + 1) := by omega
          rw [← e]; exact h2
    have heads : ∀ (ps : List (F × List Nat)), (∀ x p, (x, p) ∈ ps ↔
        ∃ (j : Nat) (f : Fld), r[j]? = some f ∧ ((f.tag ≠ "" ∧ p = [i + 1 + j] ∧ x = ⟨(a, i + 1 + j), f.tag, f.typ, !s && f.exported⟩) ∨
        (f.tag = "" ∧ ∃ b q, (f.kind = .struct b ∨ f.kind = .ptr (some b)) ∧ p = (i + 1 + j) :: q ∧ Occ h b (below s f) q x))) →
        ∀ q, i :: q ∉ ps.map (·.2) := by
      intro ps hps q hq
      obtain ⟨⟨x, p⟩, hx, he⟩ := List.mem_map.mp hq
      simp only at he
      subst he
      obtain ⟨j, g, _, ⟨_, h2, _⟩ | ⟨_, b, q', _, h2, _⟩⟩ := (hps _ _).mp hx
      · simp at h2; omega
      · simp at h2; omega
    split at hl
    · rename_i ht
      split at hl
      · rename_i fs' hfs
        simp only [Option.some.injEq, Except.ok.injEq] at hl
        subst hl
        obtain ⟨ps, h1, h2, h3⟩ := ih _ _ hfs
        refine ⟨(⟨(a, i), f.tag, f.typ, !s && f.exported⟩, [i]) :: ps, by simp [h1], ?_, fun x p => ?_⟩
        · rw [List.map_cons, List.nodup_cons]
          exact ⟨heads ps h3 [], h2⟩
        · rw [shift, List.mem_cons, h3]
          simp only [ht, ne_eq, not_false_eq_true, true_and, false_and, or_false, Prod.mk.injEq]
          rw [And.comm (a := x = _)]
      · rename_i hn; exact absurd hl (by intro hc; exact hn _ hc)
    · rename_i ht
      have ht : f.tag = "" := by simpa using ht
      split at hl
      · rename_i hk
        obtain ⟨ps, h1, h2, h3⟩ := ih _ _ hl
        refine ⟨ps, h1, h2, fun x p => ?_⟩
        rw [shift, h3]
        simp [ht, hk]
      · simp at hl
      all_goals
        rename_i b hk
        split at hl
        · rename_i gs hgs
          split at hl
          · rename_i fs' hfs
            simp only [Option.some.injEq, Except.ok.injEq] at hl
            subst hl
            obtain ⟨ps, h1, h2, h3⟩ := ih _ _ hfs
            obtain ⟨qs, g1, g2, g3⟩ := hin _ _ _ hgs
            refine ⟨qs.map (fun y => (y.1, i :: y.2)) ++ ps, ?_, ?_, fun x p => ?_⟩
            · rw [List.map_append, List.map_map, h1, ← g1]; rfl
            · rw [List.map_append, List.map_map, List.nodup_append]
              refine ⟨?_, h2, ?_⟩
              · rw [show ((fun y : F × List Nat => y.2) ∘ fun y => (y.1, i :: y.2)) = (fun q => i :: q) ∘ (fun y : F × List Nat => y.2) from rfl, ← List.map_map]
                exact List.Pairwise.map (f := fun q => i :: q) (fun x y hxy => by simpa using hxy) g2
              · intro u hu v hv e
                obtain ⟨y, _, hy⟩ := List.mem_map.mp hu
                simp at hy
                subst e
                rw [← hy] at hv
                exact heads ps h3 _ hv
            · rw [shift, List.mem_append, h3]
              simp only [ht, ne_eq, not_true_eq_false, false_and, false_or, true_and]
              refine or_congr ?_ Iff.rfl
              simp only [List.mem_map, Prod.mk.injEq]
              constructor
              · rintro ⟨⟨y, q⟩, hy, e1, e2⟩
                simp only at e1 e2
                subst e1
                exact ⟨b, q, by simp [hk], e2.symm, (g3 _ _).mp hy⟩
              · rintro ⟨b', q, hb, e, ho⟩
                rw [hk] at hb
                simp at hb
                subst hb
                exact ⟨(x, q), (g3 _ _).mpr ho, rfl, e.symm⟩
          · rename_i hn; exact absurd hl (by intro hc; exact hn _ hc)
        · rename_i hn; exact absurd hl (by intro hc; exact hn _ hc)

theorem fields_paths (h : Nat → Strct) : ∀ (n a : Nat) (s : Bool) (fs : List F), ebpfFields h [] n a s = some (.ok fs) →
    ∃ ps : List (F × List Nat), ps.map (·.1) = fs ∧ (ps.map (·.2)).Nodup ∧ ∀ x p, (x, p) ∈ ps ↔ Occ h a s p x := by
  intro n
  induction n with
  | zero => intro a s fs h; simp [ebpfFields] at h
  | succ n ih =>
    intro a s fs hs
    simp only [ebpfFields, List.contains_nil, Bool.false_eq_true, if_false] at hs
    obtain ⟨ps, h1, h2, h3⟩ := loop_paths h a s _ (fun b s' gs hb => ih b s' gs hb) _ _ _ hs
    refine ⟨ps, h1, h2, fun x p => ?_⟩
    rw [h3]
    constructor
    · rintro ⟨j, f, hj, ⟨ht, hp, hx⟩ | ⟨ht, b, q, hk, hp, ho⟩⟩
      · subst hp hx
        simpa using Occ.here a s j f hj ht
      · subst hp
        simpa using Occ.step a s j f b q x hj ht hk ho
    · intro ho
      cases ho with
      | here _ _ i f hi ht => exact ⟨i, f, hi, Or.inl ⟨ht, by simp, by simp⟩⟩
      | step _ _ i f b q _ hi ht hk ho => exact ⟨i, f, hi, Or.inr ⟨ht, b, q, hk, by simp, ho⟩⟩

/-! ### The assignments -/

theorem assignLoop_ok (get : Ty → String → Except Err Nat) : ∀ (fs : List F) (done : List (Ty × String)) (st : List ((Nat × Nat) × Nat)),
    assignLoop get done fs = (st, none) →
    st.map (·.1) = fs.map (·.loc) ∧ (fs.map (fun f => (f.typ, f.tag))).Nodup ∧
    (∀ f ∈ fs, (f.typ, f.tag) ∉ done ∧ ',' ∉ f.tag.toList ∧ f.settable = true ∧ ∃ o, get f.typ f.tag = .ok o ∧ (f.loc, o) ∈ st) ∧
    (∀ y ∈ st, ∃ f ∈ fs, y.1 = f.loc ∧ get f.typ f.tag = .ok y.2) := by
  intro fs
  induction fs with
  | nil => intro done st h; simp [assignLoop] at h; subst h; simp
  | cons f r ih =>
    intro done st h
    unfold assignLoop at h
    split at h
    · simp at h
    · rename_i hc
      split at h
      · simp at h
      · rename_i hd
        split at h
        · simp at h
        · rename_i o ho
          split at h
          · simp at h
          · rename_i hs
            cases hr : assignLoop get ((f.typ, f.tag) :: done) r with
            | mk st' e =>
              rw [hr] at h
              simp only [Prod.mk.injEq] at h
              obtain ⟨h1, h2⟩ := h
              subst h1 h2
              obtain ⟨g1, g2, g3, g4⟩ := ih _ _ hr
              refine ⟨by simp [g1], ?_, ?_, ?_⟩
              · rw [List.map_cons, List.nodup_cons]
                refine ⟨?_, g2⟩
                intro hm
                obtain ⟨g, hg, he⟩ := List.mem_map.mp hm
                exact (g3 g hg).1 (by rw [he]; simp)
              · intro g hg
                rcases List.mem_cons.mp hg with rfl | hg
                · exact ⟨by simpa using hd, by simpa using hc, by simpa using hs, o, ho, by simp⟩
                · obtain ⟨k1, k2, k3, o', k4, k5⟩ := g3 g hg
                  exact ⟨fun hm => k1 (by simp [hm]), k2, k3, o', k4, by simp [k5]⟩
              · intro y hy
                rcases List.mem_cons.mp hy with rfl | hy
                · exact ⟨f, by simp, rfl, ho⟩
                · obtain ⟨g, hg, hh⟩ := g4 y hy
                  exact ⟨g, by simp [hg], hh⟩

theorem assignLoop_err (get : Ty → String → Except Err Nat) : ∀ (fs : List F) (done : List (Ty × String)) (st : List ((Nat × Nat) × Nat)) (e : Err),
    assignLoop get done fs = (st, some e) →
    (e = .comma ∧ ∃ f ∈ fs, ',' ∈ f.tag.toList) ∨
    (e = .twice ∧ ¬((fs.map (fun f => (f.typ, f.tag))).Nodup ∧ ∀ f ∈ fs, (f.typ, f.tag) ∉ done)) ∨
    (∃ f ∈ fs, get f.typ f.tag = .error e) ∨
    (e = .readonly ∧ ∃ f ∈ fs, f.settable = false) := by
  intro fs
  induction fs with
  | nil => intro done st e h; simp [assignLoop] at h
  | cons f r ih =>
    intro done st e h
    unfold assignLoop at h
    split at h
    · rename_i hc
      simp at h
      exact Or.inl ⟨h.2.symm, f, by simp, by simpa using hc⟩
    · split at h
      · rename_i hd
        simp at h
        refine Or.inr (Or.inl ⟨h.2.symm, fun hh => hh.2 f (by simp) (by simpa using hd)⟩)
      · split at h
        · rename_i e' he
          simp at h
          exact Or.inr (Or.inr (Or.inl ⟨f, by simp, by rw [he, h.2]⟩))
        · split at h
          · rename_i hs
            simp at h
            exact Or.inr (Or.inr (Or.inr ⟨h.2.symm, f, by simp, by simpa using hs⟩))
          · cases hr : assignLoop get ((f.typ, f.tag) :: done) r with
            | mk st' e' =>
              rw [hr] at h
              simp only [Prod.mk.injEq] at h
              obtain ⟨h1, h2⟩ := h
              subst h2
              rcases ih _ _ _ hr with ⟨k, g, hg, k2⟩ | ⟨k, k2⟩ | ⟨g, hg, k2⟩ | ⟨k, g, hg, k2⟩
              · exact Or.inl ⟨k, g, by simp [hg], k2⟩
              · refine Or.inr (Or.inl ⟨k, fun hh => k2 ?_⟩)
                obtain ⟨hn, hd⟩ := hh
                rw [List.map_cons, List.nodup_cons] at hn
                refine ⟨hn.2, fun g hg hm => ?_⟩
                rcases List.mem_cons.mp hm with he | hm
                · exact hn.1 (List.mem_map.mpr ⟨g, hg, he⟩)
                · exact hd g (by simp [hg]) hm
              · exact Or.inr (Or.inr (Or.inl ⟨g, by simp [hg], k2⟩))
              · exact Or.inr (Or.inr (Or.inr ⟨k, g, by simp [hg], k2⟩))

theorem store_other (st : List ((Nat × Nat) × Nat)) : ∀ (m : Nat × Nat → Option Nat) (l : Nat × Nat), l ∉ st.map (·.1) → store m st l = m l := by
  induction st with
  | nil => intro m l _; rfl
  | cons y r ih =>
    intro m l hl
    simp only [List.map_cons, List.mem_cons, not_or] at hl
    simp only [store]
    rw [ih _ _ hl.2, if_neg hl.1]

theorem store_in (st : List ((Nat × Nat) × Nat)) : ∀ (m : Nat × Nat → Option Nat) (l : Nat × Nat) (o : Nat), (l, o) ∈ st → (∀ o', (l, o') ∈ st → o' = o) → store m st l = some o := by
  induction st with
  | nil => intro m l o h; simp at h
  | cons y r ih =>
    intro m l o h hu
    simp only [store]
    by_cases hr : l ∈ r.map (·.1)
    · obtain ⟨⟨l', o'⟩, hm, he⟩ := List.mem_map.mp hr
      simp only at he
      subst he
      have := hu o' (by simp [hm])
      subst this
      exact ih _ _ _ hm (fun o'' h'' => hu o'' (by simp [h'']))
    · rw [store_other _ _ _ hr]
      rcases List.mem_cons.mp h with e | h
      · subst e; simp
      · exact absurd (List.mem_map.mpr ⟨_, h, rfl⟩) hr

theorem get_has (c : Coll) (t : Ty) (n : String) (o : Nat) : c.get t n = .ok o ↔ Has c t n o := by
  cases t <;> simp only [Coll.get, Has]
  · cases c.progs.lookup n <;> simp
  · cases c.maps.lookup n <;> simp
  · cases c.vars.lookup n <;> simp
  · simp

theorem get_err (c : Coll) (t : Ty) (n : String) (e : Err) (h : c.get t n = .error e) :
    (e = .missing ∧ t ≠ .other ∧ ∀ o, ¬Has c t n o) ∨ (e = .unsupported ∧ t = .other) := by
  cases t <;> simp only [Coll.get, Has] at h ⊢
  · cases hl : c.progs.lookup n <;> simp_all
  · cases hl : c.maps.lookup n <;> simp_all
  · cases hl : c.vars.lookup n <;> simp_all
  · simp_all

theorem tagged_iff (h : Nat → Strct) (n a : Nat) (fs : List F) (hf : ebpfFields h [] n a false = some (.ok fs)) (loc : Nat × Nat) (t : Ty) (tag : String) (b : Bool) :
    Tagged h a loc t tag b ↔ (⟨loc, tag, t, b⟩ : F) ∈ fs :=
  (((fields_gen h n a false fs hf).1 ⟨loc, tag, t, b⟩).symm)

/-- **C87.** When assigning the contents of a collection spec succeeds, every tagged field of the struct, of the structs in it and of the ones it points
to holds the object of the field's type and name, nothing else in memory has changed, and no object was given to two fields. -/
theorem assign_exact (h : Nat → Strct) (c : Coll) (n a : Nat) (st : List ((Nat × Nat) × Nat)) (hs : specAssign h c n (some a) = some (st, none)) (m : Nat × Nat → Option Nat) :
    (∀ loc t tag b, Tagged h a loc t tag b → b = true ∧ ',' ∉ tag.toList ∧ ∃ o, Has c t tag o ∧ store m st loc = some o) ∧
    (∀ loc, (¬∃ t tag b, Tagged h a loc t tag b) → store m st loc = m loc) ∧
    (∀ loc loc' t tag b b', Tagged h a loc t tag b → Tagged h a loc' t tag b' → loc = loc') ∧
    (∀ p q x y, Occ h a false p x → Occ h a false q y → x.typ = y.typ → x.tag = y.tag → p = q) ∧
    ¬NilField h a := by
  simp only [specAssign, assignValues] at hs
  split at hs
  · simp at hs
  · simp at hs
  · rename_i fs hf
    simp only [Option.some.injEq] at hs
    obtain ⟨h1, h2, h3, h4⟩ := assignLoop_ok _ _ _ _ hs
    have hmem := fun loc t tag b => tagged_iff h n a fs hf loc t tag b
    have hloc : ∀ x ∈ fs, ∀ y ∈ fs, x.loc = y.loc → x.typ = y.typ ∧ x.tag = y.tag := by
      intro x hx y hy e
      obtain ⟨_, f, _, hxf, _, ht, htag, _⟩ := ((fields_gen h n a false fs hf).1 x).mp hx
      obtain ⟨_, g, _, hyg, _, ht', htag', _⟩ := ((fields_gen h n a false fs hf).1 y).mp hy
      rw [e, hyg] at hxf
      simp only [Option.some.injEq] at hxf
      subst hxf
      exact ⟨by rw [ht, ht'], by rw [htag, htag']⟩
    have hpaths : ∀ p q x y, Occ h a false p x → Occ h a false q y → x.typ = y.typ → x.tag = y.tag → p = q ∧ x = y := by
      intro p q x y hp hq e1 e2
      obtain ⟨ps, g1, g2, g3⟩ := fields_paths h n a false fs hf
      have hx := (g3 x p).mpr hp
      have hy := (g3 y q).mpr hq
      rw [← g1, List.map_map] at h2
      obtain ⟨i, hi⟩ := List.mem_iff_getElem?.mp hx
      obtain ⟨j, hj⟩ := List.mem_iff_getElem?.mp hy
      have hij : i = j := by
        have hli := (List.getElem?_eq_some_iff.mp hi).1
        have hlj := (List.getElem?_eq_some_iff.mp hj).1
        have hi' := (List.getElem?_eq_some_iff.mp hi).2
        have hj' := (List.getElem?_eq_some_iff.mp hj).2
        have := List.pairwise_iff_getElem.mp h2
        rcases Nat.lt_trichotomy i j with hlt | he | hlt
        · exact (this i j (by simpa using hli) (by simpa using hlj) hlt (by simp [hi', hj', e1, e2])).elim
        · exact he
        · exact (this j i (by simpa using hlj) (by simpa using hli) hlt (by simp [hi', hj', e1, e2])).elim
      subst hij
      rw [hi] at hj
      simp at hj
      exact ⟨hj.2, hj.1⟩
    refine ⟨fun loc t tag b ht => ?_, fun loc hn => ?_, ?_, fun p q x y hp hq e1 e2 => (hpaths p q x y hp hq e1 e2).1, (fields_gen h n a false fs hf).2⟩
    · have hx := (hmem loc t tag b).mp ht
      obtain ⟨_, k2, k3, o, k4, k5⟩ := h3 _ hx
      refine ⟨k3, k2, o, (get_has _ _ _ _).mp k4, store_in st m loc o k5 ?_⟩
      intro o' ho'
      obtain ⟨g, hg, e, hget⟩ := h4 _ ho'
      obtain ⟨e1, e2⟩ := hloc _ hx g hg e
      simp only at e1 e2 hget k4
      rw [← e1, ← e2, k4] at hget
      simp at hget
      exact hget.symm
    · apply store_other
      intro hm
      rw [h1] at hm
      obtain ⟨g, hg, e⟩ := List.mem_map.mp hm
      refine hn ⟨g.typ, g.tag, g.settable, (hmem _ _ _ _).mpr ?_⟩
      rw [← e]
      exact hg
    · intro loc loc' t tag b b' ht ht'
      obtain ⟨ps, g1, g2, g3⟩ := fields_paths h n a false fs hf
      have hx := (hmem _ _ _ _).mp ht
      have hy := (hmem _ _ _ _).mp ht'
      rw [← g1] at hx hy
      obtain ⟨⟨x, p⟩, hx, ex⟩ := List.mem_map.mp hx
      obtain ⟨⟨y, q⟩, hy, ey⟩ := List.mem_map.mp hy
      simp only at ex ey
      have := (hpaths p q x y ((g3 _ _).mp hx) ((g3 _ _).mp hy) (by rw [ex, ey]) (by rw [ex, ey])).2
      rw [ex, ey] at this
      simpa using (F.mk.inj this).1

/-- Errors have a reason. -/
theorem assign_error (h : Nat → Strct) (c : Coll) (n : Nat) (to : Option Nat) (st : List ((Nat × Nat) × Nat)) (e : Err) (hs : specAssign h c n to = some (st, some e)) :
    (to = none ∧ e = .target) ∨ ∃ a, to = some a ∧
    ((e = .nilPtr ∧ NilField h a) ∨
     (e = .comma ∧ ∃ p x, Occ h a false p x ∧ ',' ∈ x.tag.toList) ∨
     (e = .twice ∧ ∃ p q x y, Occ h a false p x ∧ Occ h a false q y ∧ p ≠ q ∧ x.typ = y.typ ∧ x.tag = y.tag) ∨
     (e = .missing ∧ ∃ p x, Occ h a false p x ∧ x.typ ≠ .other ∧ ∀ o, ¬Has c x.typ x.tag o) ∨
     (e = .unsupported ∧ ∃ p x, Occ h a false p x ∧ x.typ = .other) ∨
     (e = .readonly ∧ ∃ p x, Occ h a false p x ∧ x.settable = false)) := by
  simp only [specAssign, assignValues] at hs
  split at hs
  · simp at hs; exact Or.inl ⟨rfl, hs.2.symm⟩
  · rename_i a
    refine Or.inr ⟨a, rfl, ?_⟩
    split at hs
    · simp at hs
    · rename_i e' he
      simp at hs
      obtain ⟨h1, h2⟩ := fields_err h n a false e' he
      rw [← hs.2]
      exact Or.inl ⟨h1, h2⟩
    · rename_i fs hf
      simp only [Option.some.injEq] at hs
      obtain ⟨ps, g1, g2, g3⟩ := fields_paths h n a false fs hf
      have occ : ∀ x ∈ fs, ∃ p, Occ h a false p x := by
        intro x hx
        rw [← g1] at hx
        obtain ⟨⟨x', p⟩, hx', ex⟩ := List.mem_map.mp hx
        simp only at ex
        rw [← ex]
        exact ⟨p, (g3 _ _).mp hx'⟩
      rcases assignLoop_err _ _ _ _ _ hs with ⟨k, f, hf, k2⟩ | ⟨k, k2⟩ | ⟨f, hf, k2⟩ | ⟨k, f, hf, k2⟩
      · obtain ⟨p, hp⟩ := occ f hf
        exact Or.inr (Or.inl ⟨k, p, f, hp, k2⟩)
      · refine Or.inr (Or.inr (Or.inl ⟨k, ?_⟩))
        refine Classical.byContradiction (fun hno => k2 ⟨?_, by simp⟩)
        rw [← g1, List.map_map]
        refine List.Pairwise.map _ (R := fun x y => x ∈ ps ∧ y ∈ ps ∧ x.2 ≠ y.2) ?_ ?_
        · intro x y hxy e
          simp only [Function.comp, Prod.mk.injEq] at e
          exact hno ⟨x.2, y.2, x.1, y.1, (g3 _ _).mp hxy.1, (g3 _ _).mp hxy.2.1, hxy.2.2, e.1, e.2⟩
        · have := List.pairwise_map.mp g2
          exact List.Pairwise.imp_of_mem (fun hx hy hne => ⟨hx, hy, hne⟩) this
      · obtain ⟨p, hp⟩ := occ f hf
        rcases get_err _ _ _ _ k2 with ⟨k, k3, k4⟩ | ⟨k, k3⟩
        · exact Or.inr (Or.inr (Or.inr (Or.inl ⟨k, p, f, hp, k3, k4⟩)))
        · exact Or.inr (Or.inr (Or.inr (Or.inr (Or.inl ⟨k, p, f, hp, k3⟩))))
      · obtain ⟨p, hp⟩ := occ f hf
        exact Or.inr (Or.inr (Or.inr (Or.inr (Or.inr ⟨k, p, f, hp, k2⟩))))

/-- **C87.** Assigning succeeds whenever all that is required is there, unless a struct points back to itself. -/
theorem assign_succeeds_partial (h : Nat → Strct) (c : Coll) (a : Nat) (hacy : Acyclic h) (hnil : ¬NilField h a)
    (hall : ∀ p x, Occ h a false p x → ',' ∉ x.tag.toList ∧ x.settable = true ∧ ∃ o, Has c x.typ x.tag o)
    (hone : ∀ p q x y, Occ h a false p x → Occ h a false q y → x.typ = y.typ → x.tag = y.tag → p = q) :
    ∃ n0, ∀ n, n0 ≤ n → ∃ st, specAssign h c n (some a) = some (st, none) := by
  obtain ⟨rank, hr⟩ := hacy
  refine ⟨rank a + 1, fun n hn => ?_⟩
  have hne := fields_some h rank hr n a false (by omega)
  cases hs : specAssign h c n (some a) with
  | none =>
    simp only [specAssign, assignValues] at hs
    split at hs
    · rename_i he; exact absurd he hne
    · simp at hs
    · simp at hs
  | some r =>
    obtain ⟨st, e⟩ := r
    cases e with
    | none => exact ⟨st, rfl⟩
    | some e =>
      exfalso
      rcases assign_error h c n (some a) st e hs with ⟨h1, _⟩ | ⟨a', ha, h1⟩
      · simp at h1
      · simp at ha
        subst ha
        rcases h1 with ⟨_, k⟩ | ⟨_, p, x, k1, k2⟩ | ⟨_, p, q, x, y, k1, k2, k3, k4, k5⟩ | ⟨_, p, x, k1, k2, k3⟩ | ⟨_, p, x, k1, k2⟩ | ⟨_, p, x, k1, k2⟩
        · exact hnil k
        · exact (hall p x k1).1 k2
        · exact k3 (hone p q x y k1 k2 k4 k5)
        · obtain ⟨o, ho⟩ := (hall p x k1).2.2; exact k3 o ho
        · obtain ⟨o, ho⟩ := (hall p x k1).2.2; rw [k2] at ho; exact ho
        · have := (hall p x k1).2.1; rw [k2] at this; simp at this

/-- **C87 is false for structs which point to themselves:** such a struct should be rejected ("recursion on type"), but the set of visited types
is never added to, and the recursion does not end. -/
theorem assign_cyclic_diverges (c : Coll) :
    let h : Nat → Strct := fun _ => ⟨0, [⟨"", .other, .ptr (some 0), true, false⟩]⟩
    ∀ n, specAssign h c n (some 0) = none ∧ collAssign h c n (some 0) = none := by
  intro h n
  have key : ∀ n s, ebpfFields h [] n 0 s = none := by
    intro n
    induction n with
    | zero => intro s; rfl
    | succ n ih =>
      intro s
      simp only [ebpfFields, List.contains_nil, Bool.false_eq_true, if_false]
      simp only [h, fieldsLoop]
      simp [ih, h] at ih ⊢
  constructor
  · simp only [specAssign, assignValues, key]
  · simp only [collAssign, key]

/-! ### Collections -/

theorem coll_spec (h : Nat → Strct) (c c' : Coll) (n : Nat) (to : Option Nat) (st : List ((Nat × Nat) × Nat)) (e : Option Err)
    (hs : collAssign h c n to = some (st, e, c')) : specAssign h c n to = some (st, e) := by
  simp only [collAssign] at hs
  simp only [specAssign, assignValues]
  cases to with
  | none => simp only [Option.some.injEq, Prod.mk.injEq] at hs ⊢; exact ⟨hs.1, hs.2.1⟩
  | some a =>
    simp only at hs ⊢
    cases hf : ebpfFields h [] n a false with
    | none => rw [hf] at hs; simp at hs
    | some r =>
      rw [hf] at hs
      cases r with
      | error e' => simp only [Option.some.injEq, Prod.mk.injEq] at hs ⊢; exact ⟨hs.1, hs.2.1⟩
      | ok fs =>
        simp only at hs ⊢
        cases hl : assignLoop c.get [] fs with
        | mk st' e' =>
          rw [hl] at hs
          cases e' with
          | some e' => simp only [Option.some.injEq, Prod.mk.injEq] at hs ⊢; exact ⟨hs.1, hs.2.1⟩
          | none => simp only [Option.some.injEq, Prod.mk.injEq] at hs ⊢; exact ⟨hs.1, hs.2.1⟩

theorem lookup_del (l : List (String × Nat)) (ns : List String) (x : String) : (del l ns).lookup x = if x ∈ ns then none else l.lookup x := by
  induction l with
  | nil => simp [del]
  | cons y r ih =>
    obtain ⟨k, v⟩ := y
    simp only [del] at ih
    simp only [del, List.filter_cons]
    by_cases hk : k ∈ ns
    · simp only [List.contains_eq_mem, hk, decide_true, Bool.not_true, Bool.false_eq_true, if_false]
      simp only [List.contains_eq_mem] at ih
      rw [ih]
      by_cases hx : x ∈ ns
      · simp [hx]
      · have : (x == k) = false := by
          apply beq_false_of_ne; rintro rfl; exact hx hk
        simp only [hx, if_false, List.lookup_cons, this]
    · simp only [List.contains_eq_mem, hk, decide_false, Bool.not_false, if_true]
      simp only [List.contains_eq_mem] at ih
      rw [List.lookup_cons, List.lookup_cons, ih]
      by_cases hx : x = k
      · subst hx; simp [hk]
      · have : (x == k) = false := beq_false_of_ne hx
        simp only [this]

theorem mem_names (t : Ty) (fs : List F) (x : String) : x ∈ names t fs ↔ ∃ f ∈ fs, f.typ = t ∧ f.tag = x := by
  simp only [names, List.mem_map, List.mem_filter, beq_iff_eq, and_assoc]

/-- **C87.** A collection which has been assigned to a struct keeps exactly the objects no field has taken over; if assigning fails, it keeps all of them. -/
theorem coll_ownership (h : Nat → Strct) (c c' : Coll) (n : Nat) (to : Option Nat) (st : List ((Nat × Nat) × Nat)) (e : Option Err)
    (hs : collAssign h c n to = some (st, e, c')) :
    (e ≠ none → c' = c) ∧
    (e = none → ∃ a, to = some a ∧ ∀ t x o, Has c' t x o ↔ (Has c t x o ∧ ¬∃ loc b, Tagged h a loc t x b)) := by
  simp only [collAssign] at hs
  cases to with
  | none => simp only [Option.some.injEq, Prod.mk.injEq] at hs; rw [← hs.2.1, ← hs.2.2]; simp
  | some a =>
    simp only at hs
    cases hf : ebpfFields h [] n a false with
    | none => rw [hf] at hs; simp at hs
    | some r =>
      rw [hf] at hs
      cases r with
      | error e' => simp only [Option.some.injEq, Prod.mk.injEq] at hs; rw [← hs.2.1, ← hs.2.2]; simp
      | ok fs =>
        simp only at hs
        cases hl : assignLoop c.get [] fs with
        | mk st' e' =>
          rw [hl] at hs
          cases e' with
          | some e' => simp only [Option.some.injEq, Prod.mk.injEq] at hs; rw [← hs.2.1, ← hs.2.2]; simp
          | none =>
            simp only [Option.some.injEq, Prod.mk.injEq] at hs
            obtain ⟨_, h2, h3⟩ := hs
            subst h2 h3
            refine ⟨by simp, fun _ => ⟨a, rfl, fun t x o => ?_⟩⟩
            have hname : x ∈ names t fs ↔ ∃ loc b, Tagged h a loc t x b := by
              rw [mem_names]
              constructor
              · rintro ⟨f, hfm, rfl, rfl⟩
                exact ⟨f.loc, f.settable, (tagged_iff h n a fs hf _ _ _ _).mpr hfm⟩
              · rintro ⟨loc, b, ht⟩
                exact ⟨_, (tagged_iff h n a fs hf _ _ _ _).mp ht, rfl, rfl⟩
            rw [← hname]
            cases t <;> simp only [Has, lookup_del]
            · by_cases hx : x ∈ names .prog fs <;> simp [hx]
            · by_cases hx : x ∈ names .map fs <;> simp [hx]
            · by_cases hx : x ∈ names .var fs <;> simp [hx]
            · simp

/-- **C87.** Assigning a collection stores what assigning its spec would, so after success every object belongs either to the collection or to exactly one field. -/
theorem coll_exactly_one (h : Nat → Strct) (c c' : Coll) (n a : Nat) (st : List ((Nat × Nat) × Nat))
    (hs : collAssign h c n (some a) = some (st, none, c')) (t : Ty) (x : String) (o : Nat) (hh : Has c t x o) (m : Nat × Nat → Option Nat) :
    (Has c' t x o ∧ ¬∃ loc b, Tagged h a loc t x b) ∨
    (¬Has c' t x o ∧ ∃ loc, store m st loc = some o ∧ (∃ b, Tagged h a loc t x b) ∧ ∀ loc' b', Tagged h a loc' t x b' → loc' = loc) := by
  obtain ⟨k1, _, k3, _⟩ := assign_exact h c n a st (coll_spec _ _ _ _ _ _ _ hs) m
  obtain ⟨a', ha, hown⟩ := (coll_ownership h c c' n (some a) st none hs).2 rfl
  simp at ha
  subst ha
  by_cases ht : ∃ loc b, Tagged h a loc t x b
  · obtain ⟨loc, b, ht'⟩ := ht
    refine Or.inr ⟨fun hc => ((hown t x o).mp hc).2 ⟨loc, b, ht'⟩, loc, ?_, ⟨b, ht'⟩, fun loc' b' h' => k3 _ _ _ _ _ _ h' ht'⟩
    obtain ⟨_, _, o', ho', hst⟩ := k1 loc t x b ht'
    have : o' = o := by
      cases t <;> simp only [Has] at hh ho'
      all_goals first | (rw [hh] at ho'; simpa using ho'.symm) | exact ho'.elim
    rw [← this]; exact hst
  · exact Or.inl ⟨(hown t x o).mpr ⟨hh, ht⟩, ht⟩

/-- Witness: a struct with a program and, behind a pointer, a map. -/
example : collAssign (fun a => if a = 0 then ⟨0, [⟨"p", .prog, .other, true, false⟩, ⟨"", .other, .ptr (some 1), true, false⟩]⟩ else ⟨1, [⟨"m", .map, .other, true, false⟩]⟩)
    ⟨[("p", 10), ("q", 11)], [("m", 12)], []⟩ 3 (some 0) = some ([((0, 0), 10), ((1, 0), 12)], none, ⟨[("q", 11)], [], []⟩) := rfl

end Ebpf.Assign
