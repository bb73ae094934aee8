import Verif.Props.BtfRestore
/-! # C26: what was written can be read -/
namespace Ebpf.Btf
open BtfSpec
set_option linter.unusedSectionVars false

theorem fixOrder_map {S T : Type} (n : Node S) (f : S → T) : fixOrder (n.map f) = (fixOrder n).map f := by
  cases n <;> simp [Node.map, fixOrder, Function.comp_def]

variable {R : Type} [DecidableEq R]

namespace Layout
variable {o : Opts} {g : Graph R} {order : List (TRef R)} {idf : TRef R → ID} (L : Layout o g order idf)
include L

theorem not_cycle {t : TRef R} (h : t ∈ order) (u : TRef R) : extGraph g t ≠ .cycle u := by
  cases t with
  | obj r =>
    simp only [extGraph]
    have := L.nocycle r
    cases hg : g r <;> simp [Node.map]
    exact absurd hg (this _ h)
  | tag => simp [extGraph]
  | ph r => simp only [extGraph]; cases g r <;> simp

/-- The types inflated for a type belong to its children. -/
theorem deps_owner {u : TRef R} (hu : u ∈ order) (b : ID) (hb : b ∈ deps (written o g order idf) (idf u)) :
    b = 0 ∨ ∃ w ∈ order, idf w = b ∧ Reach (children g) (owner u) (owner w) := by
  unfold deps at hb
  rw [L.node hu] at hb
  simp only [List.mem_append, fixOrder_map, List.mem_map] at hb
  rcases hb with ⟨w, hw, rfl⟩ | hb
  · rcases L.refs u hu w hw with h | h
    · right
      refine ⟨w, h, rfl, ?_⟩
      cases u with
      | obj r =>
        rcases fix_target r w hw (L.writable r hu).exported with rfl | ⟨x, rfl, hx⟩
        · exact .refl _
        · exact .step ((children_refs g r x).2 hx) (.refl _)
      | tag p v i k =>
        simp only [extGraph, lower] at hw
        split at hw <;> simp only [fixOrder, List.mem_singleton, List.not_mem_nil] at hw
        subst hw
        exact .refl _
      | ph r =>
        simp only [extGraph] at hw
        cases hg : g r <;> rw [hg] at hw <;> simp [lower, fixOrder] at hw
    · exact .inl (L.zero w h)
  · right
    rw [L.tagIDs_eq hu] at hb
    split at hb
    · cases hb
    · cases u with
      | obj r =>
        simp only [List.mem_map] at hb
        obtain ⟨w, hw, rfl⟩ := hb
        rw [← L.tags r hu] at hw
        obtain ⟨h1, h2⟩ := List.mem_filter.1 hw
        refine ⟨w, h1, rfl, ?_⟩
        cases w with
        | tag p v i k =>
          simp only [isTagOf, decide_eq_true_eq] at h2
          subst h2
          exact .refl _
        | _ => cases h2
      | _ => cases hb

theorem reach_owner {a b : ID} (h : Reach (deps (written o g order idf)) a b) : ∀ u ∈ order, idf u = a →
    b = 0 ∨ ∃ w ∈ order, idf w = b ∧ Reach (children g) (owner u) (owner w) := by
  induction h with
  | refl x => intro u hu rfl; exact .inr ⟨u, hu, rfl, .refl _⟩
  | @step x y z hxy hyz ih =>
    intro u hu rfl
    rcases L.deps_owner hu y hxy with rfl | ⟨w, hw, rfl, hr⟩
    · left
      cases hyz with
      | refl => rfl
      | step h _ => simp [deps, nodeAt] at h
    · rcases ih w hw rfl with h | ⟨w', hw', rfl, hr'⟩
      · exact .inl h
      · exact .inr ⟨w', hw', rfl, Reach.trans _ hr hr'⟩

theorem readable : Readable (written o g order idf) where
  closed := by
    intro id n hn t ht
    obtain ⟨u, hu, rfl, rfl⟩ := L.node_inv id n hn
    rw [fixOrder_map, List.mem_map] at ht
    obtain ⟨w, hw, rfl⟩ := ht
    rcases L.refs u hu w hw with h | h
    · have := (L.id_bound h).2.1
      simpa [written] using this
    · rw [L.zero w h]; simp
  nocycle := by
    intro id n hn t e
    obtain ⟨u, hu, rfl, rfl⟩ := L.node_inv id n hn
    have := lower_cycle o (placeholderOf u) (extGraph g u) (L.not_cycle hu)
    generalize lower o (placeholderOf u) (extGraph g u) = m at this e
    cases m <;> simp [Node.map] at e
    exact this _ rfl
  fin := by
    intro id n hn
    obtain ⟨u, hu, rfl, rfl⟩ := L.node_inv id n hn
    rw [L.final_seen hu]; rfl
  acyc := by
    intro id nm t l ts pts hn hne hreach
    obtain ⟨u, hu, rfl, hm⟩ := L.node_inv id _ hn
    rw [L.tagIDs_eq hu] at hne
    split at hne
    · exact hne rfl
    cases u with
    | obj r =>
      have hf : ∃ x l' ts' pts', g r = .func nm x l' ts' pts' ∧ t = idf (.obj x) := by
        simp only [extGraph] at hm
        cases hg : g r with
        | func nm' x l' ts' pts' =>
          rw [hg] at hm
          simp only [Node.map, lower, Node.func.injEq] at hm
          exact ⟨x, l', ts', pts', by rw [hm.1], hm.2.1⟩
        | enum a b c d =>
          rw [hg] at hm
          simp only [Node.map, lower] at hm
          by_cases h1 : o.replaceEnum64 = true
          · rw [if_pos h1] at hm
            by_cases h2 : b = 8
            · rw [if_pos h2] at hm; cases hm
            · rw [if_neg h2] at hm; cases hm
          · rw [if_neg h1] at hm; cases hm
        | declTag a b c => exact absurd hg ((L.writable r hu).exported _ _ _)
        | typeTag a b =>
          rw [hg] at hm
          simp only [Node.map, lower] at hm
          by_cases h1 : o.replaceTypeTags = true
          · rw [if_pos h1] at hm; cases hm
          · rw [if_neg h1] at hm; cases hm
        | _ => rw [hg] at hm; simp [Node.map, lower] at hm
      obtain ⟨x, l', ts', pts', hg, rfl⟩ := hf
      have htag : Tagged (arity (g x)) ts' pts' := by
        apply Decidable.byContradiction
        intro h
        unfold Tagged at h
        simp only [ne_eq, not_or, Decidable.not_not, not_exists, not_and] at h
        apply hne
        have hp : protoLen (g x) = arity (g x) := by cases g x <;> rfl
        have h0 : compVals 0 (pts'.take (arity (g x))) = [] := (compVals_nil _ 0).2 h.2
        have : ((tagsOfObj g r).map tagVal) = [] := by
          rw [tagsOfObj_eq, hg]
          simp only [List.map_append, tagVal_comp, tagVal_from, hp, h0, h.1]; rfl
        rw [List.map_eq_nil_iff] at this
        simp [this]
      obtain ⟨⟨ret, ps, hx⟩, hnr⟩ := (L.writable r hu).func nm x l' ts' pts' hg htag
      have hxo : TRef.obj x ∈ order := by
        rcases L.refs _ hu (.obj x) (by simp [extGraph, hg, Node.map, lower, fixOrder]) with h | h
        · exact h
        · simp [extGraph, hx, Node.map] at h
      rcases L.reach_owner hreach (.obj x) hxo rfl with h | ⟨w, hw, he, hr⟩
      · exact (L.id_bound hu).1 h
      · have := L.id_inj hw hu he
        subst this
        exact hnr hr
    | _ => exact hne rfl

end Layout
end Ebpf.Btf
