import Verif.Props.BtfTotal
import Verif.Props.BtfRoundTrip
/-! # C26: sizes -/
namespace Ebpf.Btf
open BtfSpec
set_option linter.unusedSectionVars false
variable {R : Type} [DecidableEq R]

/-- Everything that may be written for the types `U`. -/
def allRefs (g : Graph R) (U : List R) : List (TRef R) := U.flatMap fun r => .obj r :: .ph r :: tagsOfObj g r

theorem tagsOfObj_parent (g : Graph R) (r p : R) (v : Bytes) (i : Int) (k : Nat) (h : TRef.tag p v i k ∈ tagsOfObj g r) : p = r := by
  have := (List.mem_filter.1 h).2
  simp only [isTagOf, decide_eq_true_eq] at this
  exact this

theorem tagsOfObj_tag (g : Graph R) (r : R) (t : TRef R) (h : t ∈ tagsOfObj g r) : ∃ v i k, t = .tag r v i k := by
  obtain ⟨_, h2⟩ := List.mem_filter.1 h
  cases t with
  | tag p v i k => rw [tagsOfObj_parent g r p v i k h]; exact ⟨v, i, k, rfl⟩
  | _ => cases h2

theorem mem_allRefs (g : Graph R) (U : List R) (t : TRef R) : t ∈ allRefs g U ↔
    match t with
    | .obj r => r ∈ U
    | .ph r => r ∈ U
    | .tag p v i k => p ∈ U ∧ .tag p v i k ∈ tagsOfObj g p := by
  simp only [allRefs, List.mem_flatMap, List.mem_cons]
  cases t with
  | obj r =>
    dsimp only
    constructor
    · rintro ⟨a, ha, h | h | h⟩
      · cases h; exact ha
      · cases h
      · obtain ⟨_, _, _, h⟩ := tagsOfObj_tag g a _ h; cases h
    · exact fun h => ⟨r, h, .inl rfl⟩
  | ph r =>
    dsimp only
    constructor
    · rintro ⟨a, ha, h | h | h⟩
      · cases h
      · cases h; exact ha
      · obtain ⟨_, _, _, h⟩ := tagsOfObj_tag g a _ h; cases h
    · exact fun h => ⟨r, h, .inr (.inl rfl)⟩
  | tag p v i k =>
    dsimp only
    constructor
    · rintro ⟨a, ha, h | h | h⟩
      · cases h
      · cases h
      · have := tagsOfObj_parent g a p v i k h; subst this; exact ⟨ha, h⟩
    · exact fun h => ⟨p, h.1, .inr (.inr h.2)⟩

theorem tag_parent (g : Graph R) (r p : R) (v : Bytes) (i : Int) (k : Nat) (h : TRef.tag p v i k ∈ children g (.obj r)) : p = r ∧ TRef.tag p v i k ∈ tagsOfObj g p := by
  have hp : p = r := ((children_tags g r p v i k).1 h).1
  subst hp
  exact ⟨rfl, by unfold tagsOfObj; rw [List.mem_filter]; exact ⟨h, by simp [isTagOf]⟩⟩

theorem refs_targets (n : Node R) (hn : ∀ t v i, n ≠ .declTag t v i) (x : R) : x ∈ Btf.refs n ↔ x ∈ targets n := by
  cases n <;> simp [Btf.refs, targets]
  exact absurd rfl (hn _ _ _)

theorem allRefs_closed (g : Graph R) (U : List R) (hw : ∀ r ∈ U, ∀ x ∈ Btf.refs (g r), x ∈ U) : Closed (children g) (allRefs g U) := by
  intro t ht c hc
  cases t with
  | obj r =>
    have hr : r ∈ U := (mem_allRefs g U (.obj r)).1 ht
    cases c with
    | obj x => exact (mem_allRefs g U (.obj x)).2 (hw r hr x ((children_refs g r x).1 hc))
    | tag p v i k =>
      obtain ⟨rfl, h⟩ := tag_parent g r p v i k hc
      exact (mem_allRefs g U _).2 ⟨hr, h⟩
    | ph q => exact absurd hc (children_no_ph g _ q)
  | _ => simp [children] at hc

/-! ## Strings -/

theorem strings_texts (o : Opts) (r : R) (n : Node R) (hn : ∀ t v i, n ≠ .declTag t v i) (s : Bytes)
    (hs : s ∈ strings (lower o (TRef.ph r) (n.map TRef.obj))) : s = [] ∨ s ∈ texts n := by
  cases n with
  | struct a b ms ts =>
    simp only [Node.map, lower, strings, List.map_map, List.mem_cons, List.mem_map] at hs
    simp only [texts, List.mem_cons, List.mem_append, List.mem_map]
    rcases hs with h | ⟨m, hm, rfl⟩
    · exact .inr (.inl h)
    · exact .inr (.inr (.inl ⟨m, hm, rfl⟩))
  | union a b ms ts =>
    simp only [Node.map, lower, strings, List.map_map, List.mem_cons, List.mem_map] at hs
    simp only [texts, List.mem_cons, List.mem_append, List.mem_map]
    rcases hs with h | ⟨m, hm, rfl⟩
    · exact .inr (.inl h)
    · exact .inr (.inr (.inl ⟨m, hm, rfl⟩))
  | enum a b c vs =>
    simp only [Node.map, lower] at hs
    simp only [texts, List.mem_cons, List.mem_map]
    right
    split at hs
    · split at hs
      · simp only [strings, List.map_map, List.mem_cons, List.mem_map] at hs
        rcases hs with h | ⟨m, hm, rfl⟩
        · exact .inl h
        · exact .inr ⟨m, hm, rfl⟩
      · simp only [strings, List.map_map, List.mem_cons, List.mem_map] at hs
        rcases hs with h | ⟨m, hm, rfl⟩
        · exact .inl h
        · exact .inr ⟨m, hm, rfl⟩
    · simp only [strings, List.mem_cons, List.mem_map] at hs
      exact hs
  | declTag t v i => exact absurd rfl (hn t v i)
  | typeTag t v =>
    simp only [Node.map, lower] at hs
    split at hs
    · left; simpa [strings, Node.name] using hs
    · right; simpa [strings, texts] using hs
  | funcProto ret ps =>
    simp only [Node.map, lower, strings, List.map_map, List.mem_map] at hs
    obtain ⟨p, hp, rfl⟩ := hs
    right; simp only [texts, List.mem_map]; exact ⟨p, hp, rfl⟩
  | _ =>
    simp only [Node.map, lower, strings, Node.name, List.mem_singleton] at hs
    simp [texts, Node.name, hs]

theorem name_texts (n : Node R) : n.name = [] ∨ n.name ∈ texts n := by
  cases n <;> simp [Node.name, texts]

theorem tag_texts (g : Graph R) (p : R) (v : Bytes) (i : Int) (k : Nat) (h : TRef.tag p v i k ∈ tagsOfObj g p) : v ∈ texts (g p) := by
  have hown : ∀ (ts : List Bytes) (idx : Int) (c : Nat), TRef.tag p v i k ∈ tagRefsFrom p idx c ts → v ∈ ts := by
    intro ts idx
    induction ts with
    | nil => intro c h; cases h
    | cons t ts ih =>
      intro c h
      simp only [tagRefsFrom, List.mem_cons] at h
      rcases h with h | h
      · cases h; simp
      · simp [ih _ h]
  have hcomp : ∀ (l : List (List Bytes)) (c : Nat), TRef.tag p v i k ∈ compTags p c l → v ∈ l.flatten := by
    intro l
    induction l with
    | nil => intro c h; cases h
    | cons t l ih =>
      intro c h
      simp only [compTags, List.mem_append] at h
      rw [List.flatten_cons, List.mem_append]
      rcases h with h | h
      · exact .inl (hown _ _ _ h)
      · exact .inr (ih _ h)
  rw [tagsOfObj_eq] at h
  cases hg : g p <;> rw [hg] at h <;> simp only [List.mem_append, List.not_mem_nil] at h <;> simp only [texts, List.mem_cons, List.mem_append]
  · rcases h with h | h
    · exact .inr (.inr (.inl (hcomp _ _ h)))
    · exact .inr (.inr (.inr (hown _ _ _ h)))
  · rcases h with h | h
    · exact .inr (.inr (.inl (hcomp _ _ h)))
    · exact .inr (.inr (.inr (hown _ _ _ h)))
  · exact .inr (hown _ _ _ h)
  · rcases h with h | h
    · have := hcomp _ _ h
      refine .inr (.inl ?_)
      rw [List.mem_flatten] at this ⊢
      obtain ⟨l, hl, hv⟩ := this
      exact ⟨l, List.mem_of_mem_take hl, hv⟩
    · exact .inr (.inr (hown _ _ _ h))
  · exact .inr (hown _ _ _ h)

theorem good_of (o : Opts) (g : Graph R) (U : List R) (hw : ∀ r ∈ U, g r ≠ .void → Writable g r ∧ Storable (g r)) (t : TRef R) (ht : t ∈ allRefs g U)
    (hv : extGraph g t ≠ .void) : Good o g t := by
  cases t with
  | obj r =>
    have hr : r ∈ U := (mem_allRefs g U (.obj r)).1 ht
    have hnv : g r ≠ .void := by intro e; apply hv; simp [extGraph, e, Node.map]
    obtain ⟨w, st⟩ := hw r hr hnv
    have hnul : ∀ s, s = [] ∨ s ∈ texts (g r) → 0#8 ∉ s := by
      rintro s (rfl | h)
      · simp
      · exact st.nul s h
    constructor
    · have : (extGraph g (.obj r)).name = (g r).name := by simp only [extGraph]; cases g r <;> rfl
      rw [this]; exact hnul _ (name_texts _)
    · exact fun s hs => hnul _ (strings_texts o r (g r) w.exported s hs)
    · intro u
      simp only [extGraph]
      cases hg : g r <;> simp [Node.map]
      exact absurd hg (w.acyclic _)
    · intro nm s sg vs he h8 v hv
      have hg : g r = .enum nm s sg vs := by
        simp only [extGraph] at he
        cases hg : g r <;> rw [hg] at he <;> simp [Node.map] at he
        simp [he]
      have := st.enum nm s sg vs hg h8 v hv
      unfold enumFits
      cases sg with
      | true => simp at this ⊢; omega
      | false => simp at this ⊢; omega
    · rintro _ ⟨⟩; exact w.exported
  | tag p v i k =>
    obtain ⟨hp, hm⟩ := (mem_allRefs g U (.tag p v i k)).1 ht
    have hvt := tag_texts g p v i k hm
    have hnv : g p ≠ .void := by intro e; simp [tagsOfObj, childrenObj, e] at hm
    have hnul := (hw p hp hnv).2.nul v hvt
    constructor
    · simp [extGraph, Node.name]
    · intro s hs
      simp only [extGraph, lower] at hs
      split at hs
      · simp only [strings, Node.name, List.mem_singleton] at hs
        subst hs; decide
      · simp only [strings, List.mem_singleton] at hs
        subst hs; exact hnul
    · simp [extGraph]
    · simp [extGraph]
    · simp
  | ph r =>
    simp only [extGraph] at hv
    cases hg : g r <;> rw [hg] at hv <;> simp only [ne_eq, not_true_eq_false, reduceCtorEq, not_false_eq_true] at hv
    constructor
    · simp only [extGraph, hg, Node.name]; decide
    · intro s hs
      simp only [extGraph, hg, lower, strings, Node.name, List.mem_singleton] at hs
      subst hs; decide
    · simp [extGraph, hg]
    · simp [extGraph, hg]
    · simp

/-! ## Sizes -/

/-- Sums over a list and over one which contains it. -/
theorem nodup_sum_le {α : Type} [DecidableEq α] (w : α → Nat) : ∀ (l m : List α), l.Nodup → (∀ x ∈ l, x ∈ m) → (l.map w).sum ≤ (m.map w).sum
  | [], m, _, _ => by simp
  | x :: l, m, hn, h => by
    rw [List.nodup_cons] at hn
    have hx := h x (by simp)
    have := nodup_sum_le w l (m.erase x) hn.2 (by
      intro y hy
      refine (List.mem_erase_of_ne ?_).2 (h y (by simp [hy]))
      rintro rfl; exact hn.1 hy)
    have hsum := ((List.perm_cons_erase hx).map w).sum_nat
    rw [hsum]
    simp; omega

/-- The number of bytes a list of strings takes. -/
def strBytes (l : List Bytes) : Nat := (l.map fun s => s.length + 1).sum
/-- A bound on the above and twelve bytes for each. -/
def strCost (l : List Bytes) : Nat := (l.map fun s => s.length + 50).sum

theorem strBytes_cons (s : Bytes) (l : List Bytes) : strBytes (s :: l) = s.length + 1 + strBytes l := by simp [strBytes]
theorem strCost_cons (s : Bytes) (l : List Bytes) : strCost (s :: l) = s.length + 50 + strCost l := by simp [strCost]
theorem strCost_append (l m : List Bytes) : strCost (l ++ m) = strCost l + strCost m := by simp [strCost]
theorem strBytes_le (l : List Bytes) : strBytes l + 12 * l.length ≤ strCost l := by
  induction l with
  | nil => simp [strBytes, strCost]
  | cons s l ih => rw [strBytes_cons, strCost_cons, List.length_cons]; omega
theorem strBytes_map {α : Type} (l : List α) (f : α → Bytes) : strBytes (l.map f) + 12 * l.length ≤ strCost (l.map f) := by
  have := strBytes_le (l.map f)
  simpa using this

/-- Bytes written for a type. -/
def weight (o : Opts) (g : Graph R) (t : TRef R) : Nat :=
  12 + dataLen (lower o (placeholderOf t) (extGraph g t)) + strBytes (strings (lower o (placeholderOf t) (extGraph g t)))

theorem weight_tag (o : Opts) (g : Graph R) (p : R) (v : Bytes) (i : Int) (k : Nat) : weight o g (.tag p v i k) ≤ v.length + 50 := by
  simp only [weight, extGraph, lower]
  split
  · simp [dataLen, strings, Node.name, strBytes, declTagPlaceholder] <;> omega
  · simp [dataLen, strings, strBytes]; omega

theorem weight_ph (o : Opts) (g : Graph R) (r : R) : weight o g (.ph r) ≤ 35 := by
  simp only [weight, extGraph]
  cases g r <;> simp [lower, dataLen, strings, Node.name, strBytes, enum64Placeholder]

theorem weight_own (o : Opts) (g : Graph R) (p : R) (i : Int) : ∀ (ts : List Bytes) (c : Nat), ((tagRefsFrom p i c ts).map (weight o g)).sum ≤ strCost ts
  | [], c => by simp [tagRefsFrom]
  | t :: ts, c => by
    have h1 := weight_tag o g p t i c
    have h2 := weight_own o g p i ts (c + 1)
    rw [tagRefsFrom, List.map_cons, List.sum_cons, strCost_cons]
    omega

theorem weight_comp (o : Opts) (g : Graph R) (p : R) : ∀ (l : List (List Bytes)) (c : Nat), ((compTags p c l).map (weight o g)).sum ≤ strCost l.flatten
  | [], c => by simp [compTags]
  | t :: l, c => by
    have h1 := weight_own o g p c t 0
    have h2 := weight_comp o g p l (c + 1)
    rw [compTags, List.map_append, List.sum_append, List.flatten_cons, strCost_append]
    omega

theorem strCost_take (l : List (List Bytes)) (k : Nat) : strCost (l.take k).flatten ≤ strCost l.flatten := by
  conv => rhs; rw [← List.take_append_drop k l]
  rw [List.flatten_append, strCost_append]; omega

theorem cost_bound (o : Opts) (g : Graph R) (r : R) (hn : ∀ t v i, g r ≠ .declTag t v i) :
    weight o g (.obj r) + (weight o g (.ph r) + ((tagsOfObj g r).map (weight o g)).sum) ≤ cost (g r) := by
  have hph := weight_ph o g r
  generalize weight o g (.ph r) = P at hph
  have hcost : cost (g r) = 100 + strCost (texts (g r)) + match g r with | .datasec _ _ vs => 16 * vs.length | _ => 0 := rfl
  rw [tagsOfObj_eq, hcost]
  have hobj : weight o g (.obj r) = 12 + dataLen (lower o (TRef.ph r) ((g r).map TRef.obj)) + strBytes (strings (lower o (TRef.ph r) ((g r).map TRef.obj))) := rfl
  rw [hobj]
  cases hg : g r with
  | declTag => exact absurd hg (hn _ _ _)
  | struct a b ms ts =>
    have h1 := weight_comp o g r (ms.map (·.tags)) 0
    have h2 := weight_own o g r (-1) ts 0
    have h3 := strBytes_map ms (·.name)
    simp only [Node.map, lower, dataLen, strings, List.length_map, List.map_map, List.map_append, List.sum_append, texts, strBytes_cons, strCost_cons, strCost_append] at h1 h2 h3 ⊢
    simp only [Function.comp_def, untag] at h1 h2 h3 ⊢
    omega
  | union a b ms ts =>
    have h1 := weight_comp o g r (ms.map (·.tags)) 0
    have h2 := weight_own o g r (-1) ts 0
    have h3 := strBytes_map ms (·.name)
    simp only [Node.map, lower, dataLen, strings, List.length_map, List.map_map, List.map_append, List.sum_append, texts, strBytes_cons, strCost_cons, strCost_append] at h1 h2 h3 ⊢
    simp only [Function.comp_def, untag] at h1 h2 h3 ⊢
    omega
  | enum a b c vs =>
    have h3 := strBytes_map vs (·.name)
    simp only [Node.map, lower, List.map_nil, List.sum_nil, texts, strCost_cons]
    split
    · split
      · simp only [dataLen, strings, List.length_map, List.map_map, strBytes_cons]
        simp only [Function.comp_def]
        omega
      · rename_i h8
        simp only [dataLen, strings, List.length_map, List.map_map, strBytes_cons, if_neg h8]
        simp only [Function.comp_def]
        omega
    · simp only [dataLen, strings, strBytes_cons]
      have : (if b = 8 then 12 else 8) * vs.length ≤ 12 * vs.length := Nat.mul_le_mul_right _ (by split <;> omega)
      omega
  | typedef a t ts =>
    have h2 := weight_own o g r (-1) ts 0
    simp only [Node.map, lower, dataLen, strings, Node.name, texts, strBytes_cons, strCost_cons]
    simp only [strBytes, List.map_nil, List.sum_nil]
    omega
  | var a t l ts =>
    have h2 := weight_own o g r (-1) ts 0
    simp only [Node.map, lower, dataLen, strings, Node.name, texts, strBytes_cons, strCost_cons]
    simp only [strBytes, List.map_nil, List.sum_nil]
    omega
  | func a t l ts pts =>
    have h1 := weight_comp o g r (pts.take (protoLen (g t))) 0
    have h2 := weight_own o g r (-1) ts 0
    have h3 := strCost_take pts (protoLen (g t))
    simp only [Node.map, lower, dataLen, strings, Node.name, texts, strBytes_cons, strCost_cons, strCost_append, List.map_append, List.sum_append]
    simp only [strBytes, List.map_nil, List.sum_nil]
    omega
  | funcProto ret ps =>
    have h3 := strBytes_map ps (·.name)
    simp only [Node.map, lower, dataLen, strings, texts, List.map_map, List.length_map, List.map_nil, List.sum_nil]
    simp only [Function.comp_def]
    omega
  | datasec a b vs =>
    simp only [Node.map, lower, dataLen, strings, Node.name, texts, strBytes_cons, strCost_cons, List.length_map]
    simp only [strBytes, List.map_nil, List.sum_nil]
    omega
  | typeTag t v =>
    simp only [Node.map, lower, texts, strCost_cons]
    split <;> simp only [dataLen, strings, Node.name, strBytes_cons] <;> simp only [strBytes, strCost, List.map_nil, List.sum_nil, List.length_nil] <;> omega
  | _ =>
    simp only [Node.map, lower, dataLen, strings, Node.name, texts, strBytes_cons, strCost_cons]
    simp only [strBytes, strCost, List.map_nil, List.sum_nil, List.length_nil]
    omega

theorem cost_sum (o : Opts) (g : Graph R) : ∀ (U : List R), (∀ r ∈ U, ∀ t v i, g r ≠ .declTag t v i) →
    ((allRefs g U).map (weight o g)).sum ≤ (U.map fun r => cost (g r)).sum
  | [], _ => by simp [allRefs]
  | r :: U, h => by
    have h1 := cost_bound o g r (h r (by simp))
    have h2 := cost_sum o g U (fun r hr => h r (by simp [hr]))
    simp only [allRefs, List.flatMap_cons, List.map_append, List.map_cons, List.sum_append, List.sum_cons] at h2 ⊢
    omega

end Ebpf.Btf
