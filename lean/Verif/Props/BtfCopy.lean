import Verif.Spec.BtfCopy
/-!
# C72: copies of types and specs are independent and identical
-/
namespace Ebpf.BtfCopy
open Ebpf.Btf Ebpf.BtfCopySpec

/-! ## one object -/

theorem childRefs_targets (c : CNode) : childRefs c = targets (view c) := by
  cases c <;> simp [childRefs, targets, view, Function.comp_def]

theorem copyTags_elems (s : Slice Bytes) (n : Nat) : (copyTags s n).1.elems = s.elems ∧ n ≤ (copyTags s n).2 ∧
    (∀ a ∈ arrOf (copyTags s n).1, n ≤ a ∧ a < (copyTags s n).2) ∧ (arrOf (copyTags s n).1).Nodup := by
  unfold copyTags arrOf
  cases h : s.arr <;> simp [h]

theorem copyMemberTags_spec : ∀ (ms : List CMember) (n : Nat),
    (copyMemberTags ms n).1.map (fun m => (⟨m.name, m.type, m.offset, m.bitfieldSize, m.tags.elems⟩ : Member Nat)) =
      ms.map (fun m => (⟨m.name, m.type, m.offset, m.bitfieldSize, m.tags.elems⟩ : Member Nat)) ∧ n ≤ (copyMemberTags ms n).2 ∧
    (∀ a ∈ (copyMemberTags ms n).1.flatMap (fun m => arrOf m.tags), n ≤ a ∧ a < (copyMemberTags ms n).2) ∧
    ((copyMemberTags ms n).1.flatMap (fun m => arrOf m.tags)).Nodup
  | [], n => by simp [copyMemberTags]
  | m :: ms, n => by
    obtain ⟨a1, a2, a3, a4⟩ := copyTags_elems m.tags n
    obtain ⟨b1, b2, b3, b4⟩ := copyMemberTags_spec ms (copyTags m.tags n).2
    refine ⟨?_, ?_, ?_, ?_⟩
    · simp only [copyMemberTags, List.map_cons, b1, a1]
    · simp only [copyMemberTags]; omega
    · intro a ha
      simp only [copyMemberTags, List.flatMap_cons, List.mem_append] at ha ⊢
      rcases ha with ha | ha
      · have := a3 a ha; omega
      · have := b3 a ha; omega
    · simp only [copyMemberTags, List.flatMap_cons, List.nodup_append]
      refine ⟨a4, b4, ?_⟩
      intro x hx y hy he
      have h1 := a3 x hx
      have h2 := b3 y hy
      omega

theorem copyTagLists_spec : ∀ (ts : List (Slice Bytes)) (n : Nat),
    (copyTagLists ts n).1.map (·.elems) = ts.map (·.elems) ∧ n ≤ (copyTagLists ts n).2 ∧
    (∀ a ∈ (copyTagLists ts n).1.flatMap arrOf, n ≤ a ∧ a < (copyTagLists ts n).2) ∧ ((copyTagLists ts n).1.flatMap arrOf).Nodup
  | [], n => by simp [copyTagLists]
  | t :: ts, n => by
    obtain ⟨a1, a2, a3, a4⟩ := copyTags_elems t n
    obtain ⟨b1, b2, b3, b4⟩ := copyTagLists_spec ts (copyTags t n).2
    refine ⟨?_, ?_, ?_, ?_⟩
    · simp only [copyTagLists, List.map_cons, b1, a1]
    · simp only [copyTagLists]; omega
    · intro a ha
      simp only [copyTagLists, List.flatMap_cons, List.mem_append] at ha ⊢
      rcases ha with ha | ha
      · have := a3 a ha; omega
      · have := b3 a ha; omega
    · simp only [copyTagLists, List.flatMap_cons, List.nodup_append]
      refine ⟨a4, b4, ?_⟩
      intro x hx y hy he
      have h1 := a3 x hx
      have h2 := b3 y hy
      omega

/-- What `copy` does to an object. -/
structure NodeCopy (c c' : CNode) (n n' : Nat) : Prop where
  view : view c' = view c
  le : n ≤ n'
  fresh : ∀ a ∈ arrays c', n ≤ a ∧ a < n'
  nodup : (arrays c').Nodup

theorem copyParamTags_spec (s : Slice (Slice Bytes)) (n : Nat) (hs : SliceOk s) : (copyParamTags s n).1.elems.map (·.elems) = s.elems.map (·.elems) ∧
    n ≤ (copyParamTags s n).2 ∧ (∀ a ∈ arrOf (copyParamTags s n).1 ++ (copyParamTags s n).1.elems.flatMap arrOf, n ≤ a ∧ a < (copyParamTags s n).2) ∧
    (arrOf (copyParamTags s n).1 ++ (copyParamTags s n).1.elems.flatMap arrOf).Nodup := by
  unfold copyParamTags
  cases h : s.arr with
  | none => simp [arrOf, h, hs h]
  | some x =>
    obtain ⟨b1, b2, b3, b4⟩ := copyTagLists_spec s.elems (n + 1)
    refine ⟨b1, by simp only; omega, ?_, ?_⟩
    · intro a ha
      simp only [arrOf, Option.toList_some, List.cons_append, List.nil_append, List.mem_cons] at ha ⊢
      rcases ha with ha | ha
      · omega
      · have := b3 a ha; omega
    · simp only [arrOf, Option.toList_some, List.cons_append, List.nil_append, List.nodup_cons]
      refine ⟨?_, b4⟩
      intro hm
      have := b3 n hm
      omega

theorem copyMembers_spec (s : Slice CMember) (n : Nat) :
    (copyMembers s n).1.elems.map (fun m => (⟨m.name, m.type, m.offset, m.bitfieldSize, m.tags.elems⟩ : Member Nat)) =
      s.elems.map (fun m => (⟨m.name, m.type, m.offset, m.bitfieldSize, m.tags.elems⟩ : Member Nat)) ∧
    n ≤ (copyMembers s n).2 ∧ (∀ a ∈ arrOf (copyMembers s n).1 ++ (copyMembers s n).1.elems.flatMap (fun m => arrOf m.tags), n ≤ a ∧ a < (copyMembers s n).2) ∧
    (arrOf (copyMembers s n).1 ++ (copyMembers s n).1.elems.flatMap (fun m => arrOf m.tags)).Nodup := by
  obtain ⟨b1, b2, b3, b4⟩ := copyMemberTags_spec s.elems (n + 1)
  refine ⟨b1, by simp only [copyMembers]; omega, ?_, ?_⟩
  · intro a ha
    simp only [copyMembers, arrOf, Option.toList_some, List.cons_append, List.nil_append, List.mem_cons] at ha ⊢
    rcases ha with ha | ha
    · omega
    · have := b3 a ha; omega
  · simp only [copyMembers, arrOf, Option.toList_some, List.cons_append, List.nil_append, List.nodup_cons]
    refine ⟨?_, b4⟩
    intro hm
    have := b3 n hm
    omega

theorem nodup_three {a b : List Nat} {n k m : Nat} (ha : ∀ x ∈ a, n ≤ x ∧ x < k) (hb : ∀ x ∈ b, k ≤ x ∧ x < m) (na : a.Nodup) (nb : b.Nodup) : (a ++ b).Nodup := by
  rw [List.nodup_append]
  refine ⟨na, nb, ?_⟩
  intro x hx y hy he
  have := ha x hx
  have := hb y hy
  omega

theorem copyNode_spec (c : CNode) (n : Nat) (hok : NodeOk c) : NodeCopy c (copyNode c n).1 n (copyNode c n).2 := by
  cases c with
  | struct nm s ms ts =>
    obtain ⟨a1, a2, a3, a4⟩ := copyMembers_spec ms n
    obtain ⟨b1, b2, b3, b4⟩ := copyTags_elems ts (copyMembers ms n).2
    constructor
    · simp only [copyNode, BtfCopySpec.view, a1, b1]
    · simp only [copyNode]; omega
    · intro a ha
      simp only [copyNode, arrays] at ha ⊢
      rcases List.mem_append.1 ha with h | h
      · have := a3 a h; omega
      · have := b3 a h; omega
    · simp only [copyNode, arrays]
      exact nodup_three a3 b3 a4 b4
  | union nm s ms ts =>
    obtain ⟨a1, a2, a3, a4⟩ := copyMembers_spec ms n
    obtain ⟨b1, b2, b3, b4⟩ := copyTags_elems ts (copyMembers ms n).2
    constructor
    · simp only [copyNode, BtfCopySpec.view, a1, b1]
    · simp only [copyNode]; omega
    · intro a ha
      simp only [copyNode, arrays] at ha ⊢
      rcases List.mem_append.1 ha with h | h
      · have := a3 a h; omega
      · have := b3 a h; omega
    · simp only [copyNode, arrays]
      exact nodup_three a3 b3 a4 b4
  | enum nm s sg vs => constructor <;> simp [copyNode, copySlice, BtfCopySpec.view, arrays, arrOf]
  | typedef nm t ts =>
    obtain ⟨b1, b2, b3, b4⟩ := copyTags_elems ts n
    constructor
    · simp only [copyNode, BtfCopySpec.view, b1]
    · exact b2
    · exact b3
    · exact b4
  | func nm t l ts ps =>
    obtain ⟨a1, a2, a3, a4⟩ := copyTags_elems ts n
    obtain ⟨b1, b2, b3, b4⟩ := copyParamTags_spec ps (copyTags ts n).2 hok
    constructor
    · simp only [copyNode, BtfCopySpec.view, a1, b1]
    · simp only [copyNode]; omega
    · intro a ha
      simp only [copyNode, arrays, List.append_assoc] at ha ⊢
      rcases List.mem_append.1 ha with h | h
      · have := a3 a h; omega
      · have := b3 a h; omega
    · simp only [copyNode, arrays, List.append_assoc]
      exact nodup_three a3 b3 a4 b4
  | funcProto r ps => constructor <;> simp [copyNode, copySlice, BtfCopySpec.view, arrays, arrOf]
  | var nm t l ts =>
    obtain ⟨b1, b2, b3, b4⟩ := copyTags_elems ts n
    constructor
    · simp only [copyNode, BtfCopySpec.view, b1]
    · exact b2
    · exact b3
    · exact b4
  | datasec nm s vs => constructor <;> simp [copyNode, copySlice, BtfCopySpec.view, arrays, arrOf]
  | _ => constructor <;> simp [copyNode, arrays]

theorem map_mapIdx' {α β γ : Type} (g : β → γ) (f : Nat → α → β) (l : List α) : (l.mapIdx f).map g = l.mapIdx fun i a => g (f i a) := by
  apply List.ext_getElem
  · simp
  · intro i h1 h2
    simp

theorem mapIdx_at {α β : Type} (get : α → Nat) (set : α → Nat → β) (φ : Nat → Nat) (l : List α) (pre : List Nat) :
    (l.mapIdx fun i m => set m (at' (pre ++ (l.map get).map φ) (i + pre.length) (get m))) = l.map fun m => set m (φ (get m)) := by
  apply List.ext_getElem
  · simp
  · intro i h1 h2
    simp only [List.length_mapIdx] at h1
    simp [at', List.getD_eq_getElem?_getD, List.getElem?_append_right, h1]

theorem setRefs_view (c c0 : CNode) (φ : Nat → Nat) (h : view c = view c0) : view (setRefs c ((childRefs c).map φ)) = (view c0).map φ := by
  rw [← h]
  cases c with
  | struct nm s ms ts =>
    have := mapIdx_at (fun m : CMember => m.type) (fun m t => (⟨m.name, t, m.offset, m.bitfieldSize, m.tags.elems⟩ : Member Nat)) φ ms.elems []
    simp only [List.nil_append, List.length_nil, Nat.add_zero] at this
    simp only [setRefs, childRefs, view, Node.map, map_mapIdx', List.map_map, Function.comp_def, Node.struct.injEq, true_and, and_true] at this ⊢
    exact this
  | union nm s ms ts =>
    have := mapIdx_at (fun m : CMember => m.type) (fun m t => (⟨m.name, t, m.offset, m.bitfieldSize, m.tags.elems⟩ : Member Nat)) φ ms.elems []
    simp only [List.nil_append, List.length_nil, Nat.add_zero] at this
    simp only [setRefs, childRefs, view, Node.map, map_mapIdx', List.map_map, Function.comp_def, Node.union.injEq, true_and, and_true] at this ⊢
    exact this
  | funcProto r ps =>
    have := mapIdx_at (fun m : FuncParam Nat => m.type) (fun m t => (⟨m.name, t⟩ : FuncParam Nat)) φ ps.elems [φ r]
    simp only [List.singleton_append, List.length_singleton] at this
    simp only [setRefs, childRefs, view, Node.map, List.map_cons, Node.funcProto.injEq]
    exact ⟨by simp [at'], this⟩
  | datasec nm s vs =>
    have := mapIdx_at (fun m : VarSecinfo Nat => m.type) (fun m t => (⟨t, m.offset, m.size⟩ : VarSecinfo Nat)) φ vs.elems []
    simp only [List.nil_append, List.length_nil, Nat.add_zero] at this
    simp only [setRefs, childRefs, view, Node.map, Node.datasec.injEq, true_and]
    exact this
  | _ => simp [setRefs, childRefs, view, Node.map, at']

theorem flatMap_mapIdx {α β : Type} (f : α → List β) (g : Nat → α → α) (h : ∀ i a, f (g i a) = f a) (l : List α) : (l.mapIdx g).flatMap f = l.flatMap f := by
  rw [List.flatMap_def, List.flatMap_def, map_mapIdx']
  congr 1
  apply List.ext_getElem
  · simp
  · intro i h1 h2
    simp [h]

theorem setRefs_arrays (c : CNode) (l : List Nat) : arrays (setRefs c l) = arrays c := by
  cases c <;> simp [setRefs, arrays, arrOf, flatMap_mapIdx]

theorem copyNode_void (c : CNode) (n : Nat) : (copyNode c n).1 = .void ↔ c = .void := by
  cases c <;> simp [copyNode]

theorem map_congr_targets (n : Node Nat) (φ ψ : Nat → Nat) (h : ∀ x ∈ targets n, φ x = ψ x) : n.map φ = n.map ψ := by
  have hl : ∀ {α β : Type} (l : List α) (get : α → Nat) (set : α → Nat → β), (∀ x ∈ l.map get, φ x = ψ x) →
      l.map (fun m => set m (φ (get m))) = l.map (fun m => set m (ψ (get m))) := by
    intro α β l get set hx
    apply List.map_congr_left
    intro m hm
    rw [hx _ (List.mem_map.2 ⟨m, hm, rfl⟩)]
  cases n with
  | struct nm s ms ts => simp only [Node.map]; rw [hl ms (·.type) (fun m t => (⟨m.name, t, m.offset, m.bitfieldSize, m.tags⟩ : Member Nat)) h]
  | union nm s ms ts => simp only [Node.map]; rw [hl ms (·.type) (fun m t => (⟨m.name, t, m.offset, m.bitfieldSize, m.tags⟩ : Member Nat)) h]
  | datasec nm s vs => simp only [Node.map]; rw [hl vs (·.type) (fun m t => (⟨t, m.offset, m.size⟩ : VarSecinfo Nat)) h]
  | funcProto r ps =>
    simp only [Node.map]
    rw [hl ps (·.type) (fun m t => (⟨m.name, t⟩ : FuncParam Nat)) (fun x hx => h x (List.mem_cons_of_mem _ hx)), h r List.mem_cons_self]
  | array i t k => simp only [Node.map]; rw [h i (by simp [targets]), h t (by simp [targets])]
  | ptr t => simp only [Node.map]; rw [h t (by simp [targets])]
  | typedef n t ts => simp only [Node.map]; rw [h t (by simp [targets])]
  | volatile t => simp only [Node.map]; rw [h t (by simp [targets])]
  | const t => simp only [Node.map]; rw [h t (by simp [targets])]
  | restrict t => simp only [Node.map]; rw [h t (by simp [targets])]
  | func n t l ts ps => simp only [Node.map]; rw [h t (by simp [targets])]
  | var n t l ts => simp only [Node.map]; rw [h t (by simp [targets])]
  | typeTag t v => simp only [Node.map]; rw [h t (by simp [targets])]
  | declTag t v i => simp only [Node.map]; rw [h t (by simp [targets])]
  | cycle t => simp only [Node.map]; rw [h t (by simp [targets])]
  | _ => rfl

section
variable (h0 : Heap) (ids : Nat → Option Nat) (c0 : Nat → Option Nat)

/-- The copy of a type, so far. -/
def phi (st : State) (x : Nat) : Nat := (st.copies x).getD 0

/-- The invariant; `P` are the types whose children are being copied. -/
structure Inv (P : List Nat) (st : State) : Prop where
  old : ∀ x < h0.next, st.heap.objs x = h0.objs x
  le : h0.next ≤ st.heap.next
  leArr : h0.nextArr ≤ st.heap.nextArr
  dom : ∀ r a, st.copies r = some a → r < h0.next
  void : ∀ r a, st.copies r = some a → h0.objs r = .void → a = 0
  addr : ∀ r a, st.copies r = some a → h0.objs r ≠ .void → h0.next ≤ a ∧ a < st.heap.next
  inj : ∀ r s a, st.copies r = some a → st.copies s = some a → h0.objs r ≠ .void → r = s
  arrs : ∀ r a, st.copies r = some a → h0.objs r ≠ .void → (∀ x ∈ arrays (st.heap.objs a), h0.nextArr ≤ x ∧ x < st.heap.nextArr) ∧ (arrays (st.heap.objs a)).Nodup
  disj : ∀ r s a b, st.copies r = some a → st.copies s = some b → h0.objs r ≠ .void → h0.objs s ≠ .void → r ≠ s →
    ∀ x ∈ arrays (st.heap.objs a), x ∉ arrays (st.heap.objs b)
  done : ∀ r a, st.copies r = some a → r ∉ P → view (st.heap.objs a) = (view (h0.objs r)).map (phi st) ∧
    ∀ c ∈ childRefs (h0.objs r), ∃ b, st.copies c = some b
  idsOf : ∀ r a, st.copies r = some a → c0 r = none → h0.objs r ≠ .void → st.copiedIDs a = ids r
  idsOnly : ∀ a i, st.copiedIDs a = some i → a = 0 ∨ ∃ r, st.copies r = some a ∧ h0.objs r ≠ .void ∧ ids r = some i

/-- What a step leaves alone. -/
structure Ext (st st' : State) : Prop where
  copies : ∀ x c, st.copies x = some c → st'.copies x = some c
  objs : ∀ x < st.heap.next, st'.heap.objs x = st.heap.objs x
  le : st.heap.next ≤ st'.heap.next
  leArr : st.heap.nextArr ≤ st'.heap.nextArr

theorem Ext.refl (st : State) : Ext st st := ⟨fun _ _ h => h, fun _ _ => rfl, Nat.le_refl _, Nat.le_refl _⟩

theorem Ext.trans {a b c : State} (h : Ext a b) (h' : Ext b c) : Ext a c :=
  ⟨fun x y hx => h'.copies x y (h.copies x y hx), fun x hx => (h'.objs x (Nat.lt_of_lt_of_le hx h.le)).trans (h.objs x hx), Nat.le_trans h.le h'.le,
    Nat.le_trans h.leArr h'.leArr⟩

/-- How many types have not been copied. -/
def cnt (st : State) : Nat := ((List.range h0.next).filter fun x => (st.copies x).isNone).length

theorem cnt_le {st st' : State} (h : Ext st st') : cnt h0 st' ≤ cnt h0 st := by
  unfold cnt
  rw [← List.countP_eq_length_filter, ← List.countP_eq_length_filter]
  apply List.countP_mono_left
  intro x _ hx
  cases hc : st.copies x with
  | none => rfl
  | some c => rw [h.copies x c hc] at hx; cases hx

theorem cnt_put {st st' : State} (r a : Nat) (hr : r < h0.next) (hc : st.copies r = none) (hp : st'.copies = put st.copies r a) : cnt h0 st' < cnt h0 st := by
  unfold cnt
  rw [hp]
  have hsub : (List.range h0.next).filter (fun x => (put st.copies r a x).isNone) = ((List.range h0.next).filter (fun x => (st.copies x).isNone)).filter (fun x => x ≠ r) := by
    rw [List.filter_filter]
    apply List.filter_congr
    intro x _
    unfold put
    by_cases h : x = r <;> simp [h]
  rw [hsub]
  have hm : r ∈ (List.range h0.next).filter (fun x => (st.copies x).isNone) := List.mem_filter.2 ⟨List.mem_range.2 hr, by rw [hc]; rfl⟩
  rcases Nat.lt_or_ge (((List.range h0.next).filter (fun x => (st.copies x).isNone)).filter (fun x => decide (x ≠ r))).length
    ((List.range h0.next).filter (fun x => (st.copies x).isNone)).length with h | h
  · exact h
  · have hle := List.length_filter_le (fun x => decide (x ≠ r)) ((List.range h0.next).filter (fun x => (st.copies x).isNone))
    have := List.length_filter_eq_length_iff.1 (Nat.le_antisymm hle h) r hm
    simp at this

theorem register_void {r : Nat} {st : State} (h : st.heap.objs r = .void) : register ids r st =
    (0, .void, ⟨st.heap, put st.copies r 0, match ids r with | some id => put st.copiedIDs 0 id | none => st.copiedIDs⟩) := by
  unfold register
  rw [h]
  rfl

theorem register_obj {r : Nat} {st : State} (h : st.heap.objs r ≠ .void) : register ids r st =
    (st.heap.next, (copyNode (st.heap.objs r) st.heap.nextArr).1,
      ⟨⟨fun x => if x = st.heap.next then (copyNode (st.heap.objs r) st.heap.nextArr).1 else st.heap.objs x, st.heap.next + 1, (copyNode (st.heap.objs r) st.heap.nextArr).2⟩,
      put st.copies r st.heap.next, match ids r with | some id => put st.copiedIDs st.heap.next id | none => st.copiedIDs⟩) := by
  have hv : (copyNode (st.heap.objs r) st.heap.nextArr).1 ≠ .void := fun hh => h ((copyNode_void _ _).1 hh)
  unfold register
  generalize copyNode (st.heap.objs r) st.heap.nextArr = n at hv ⊢
  obtain ⟨c, k⟩ := n
  cases c <;> first | rfl | exact absurd rfl hv

/-- What a call of `copyType` achieves. -/
structure Post (P : List Nat) (st : State) (r a : Nat) (st' : State) : Prop where
  inv : Inv h0 ids c0 P st'
  ext : Ext st st'
  copied : st'.copies r = some a

theorem phi_some {st : State} {x a : Nat} (h : st.copies x = some a) : phi st x = a := by
  unfold phi; rw [h]; rfl

theorem copyList_spec {P : List Nat} {F : Nat} {f : Nat → State → Option (Nat × State)}
    (hf : ∀ st r, Inv h0 ids c0 P st → r < h0.next → cnt h0 st < F → ∃ a st', f r st = some (a, st') ∧ Post h0 ids c0 P st r a st') :
    ∀ (rs : List Nat) (st : State), Inv h0 ids c0 P st → (∀ r ∈ rs, r < h0.next) → cnt h0 st < F →
    ∃ st', copyList f rs st = some (rs.map (phi st'), st') ∧ Inv h0 ids c0 P st' ∧ Ext st st' ∧ ∀ r ∈ rs, ∃ b, st'.copies r = some b
  | [], st, hi, _, _ => ⟨st, rfl, hi, Ext.refl st, by intro r h; cases h⟩
  | r :: rs, st, hi, hr, hc => by
    obtain ⟨a, st1, e1, p1⟩ := hf st r hi (hr r List.mem_cons_self) hc
    obtain ⟨st2, e2, i2, x2, m2⟩ := copyList_spec hf rs st1 p1.inv (fun s hs => hr s (List.mem_cons_of_mem _ hs)) (Nat.lt_of_le_of_lt (cnt_le h0 p1.ext) hc)
    have hcop := x2.copies r a p1.copied
    refine ⟨st2, ?_, i2, p1.ext.trans x2, ?_⟩
    · simp only [copyList, e1, e2, List.map_cons, phi_some hcop]
    · intro s hs
      rcases List.mem_cons.1 hs with h | h
      · subst h; exact ⟨a, hcop⟩
      · exact m2 s h

theorem copyType_spec (hw : Heap.WF h0) : ∀ (fuel : Nat) (P : List Nat) (st : State) (r : Nat), Inv h0 ids c0 P st → r < h0.next → cnt h0 st < fuel →
    ∃ a st', copyType ids fuel r st = some (a, st') ∧ Post h0 ids c0 P st r a st'
  | 0, P, st, r, _, _, hc => by omega
  | fuel + 1, P, st, r, hi, hr, hc => by
    unfold copyType
    cases hcop : st.copies r with
    | some c => exact ⟨c, st, rfl, hi, Ext.refl st, hcop⟩
    | none =>
      have hobj : st.heap.objs r = h0.objs r := hi.old r hr
      have hpos : 0 < h0.next := hw.pos
      by_cases hv : h0.objs r = .void
      · -- Void
        have h0void : st.heap.objs 0 = .void := (hi.old 0 hpos).trans hw.nil
        rw [register_void ids (by rw [hobj, hv])]
        simp only [childRefs, copyList]
        generalize hcids : (match ids r with | some id => put st.copiedIDs 0 id | none => st.copiedIDs) = cids
        have hobjs : (fun x => if x = 0 then setRefs CNode.void [] else st.heap.objs x) = st.heap.objs := by
          funext x
          by_cases hx : x = 0
          · subst hx; rw [if_pos rfl, h0void]; rfl
          · rw [if_neg hx]
        rw [hobjs]
        have hput : ∀ s b, put st.copies r 0 s = some b → s = r ∧ b = 0 ∨ s ≠ r ∧ st.copies s = some b := by
          intro s b hb
          unfold put at hb
          by_cases hs : s = r
          · rw [if_pos hs] at hb; cases hb; exact Or.inl ⟨hs, rfl⟩
          · rw [if_neg hs] at hb; exact Or.inr ⟨hs, hb⟩
        have hnv : ∀ s b, put st.copies r 0 s = some b → h0.objs s ≠ .void → st.copies s = some b := by
          intro s b hb hsv
          rcases hput s b hb with ⟨e, _⟩ | ⟨_, e⟩
          · subst e; exact absurd hv hsv
          · exact e
        have hphi : ∀ x, (∃ b, st.copies x = some b) → (put st.copies r 0 x).getD 0 = (st.copies x).getD 0 := by
          rintro x ⟨b, hb⟩
          unfold put
          by_cases hx : x = r
          · subst hx; rw [hb] at hcop; cases hcop
          · rw [if_neg hx]
        have hcid : ∀ a, a ≠ 0 → cids a = st.copiedIDs a := by
          intro a ha
          rw [← hcids]
          cases ids r with
          | none => rfl
          | some id => simp [put, ha]
        refine ⟨0, _, rfl, ⟨?_, ?_, ?_⟩⟩
        · constructor
          · exact hi.old
          · exact hi.le
          · exact hi.leArr
          · intro s b hb
            rcases hput s b hb with ⟨e, _⟩ | ⟨_, e⟩
            · rw [e]; exact hr
            · exact hi.dom s b e
          · intro s b hb hsv
            rcases hput s b hb with ⟨_, e⟩ | ⟨_, e⟩
            · exact e
            · exact hi.void s b e hsv
          · intro s b hb hsv
            exact hi.addr s b (hnv s b hb hsv) hsv
          · intro s t b hs ht hsv
            have h1 := hnv s b hs hsv
            have h2 := hi.addr s b h1 hsv
            rcases hput t b ht with ⟨_, e⟩ | ⟨_, e⟩
            · omega
            · exact hi.inj s t b h1 e hsv
          · intro s b hb hsv
            exact hi.arrs s b (hnv s b hb hsv) hsv
          · intro s t b c hs ht hsv htv hne
            exact hi.disj s t b c (hnv s b hs hsv) (hnv t c ht htv) hsv htv hne
          · intro s b hb hsP
            rcases hput s b hb with ⟨e1, e2⟩ | ⟨e1, e⟩
            · subst e1; subst e2
              refine ⟨?_, ?_⟩
              · show view (st.heap.objs 0) = _
                rw [h0void, hv]; rfl
              · rw [hv]; intro c hc; cases hc
            · obtain ⟨d1, d2⟩ := hi.done s b e hsP
              refine ⟨?_, ?_⟩
              · show view (st.heap.objs b) = _
                rw [d1]
                apply map_congr_targets
                intro x hx
                rw [← childRefs_targets] at hx
                exact (hphi x (d2 x hx)).symm
              · intro c hc
                obtain ⟨k, hk⟩ := d2 c hc
                refine ⟨k, ?_⟩
                show put st.copies r 0 c = some k
                unfold put
                rw [if_neg (by intro e; subst e; rw [hk] at hcop; cases hcop)]
                exact hk
          · intro s b hb h0c hsv
            have h1 := hnv s b hb hsv
            have h2 := hi.addr s b h1 hsv
            show cids b = ids s
            rw [hcid b (by omega)]
            exact hi.idsOf s b h1 h0c hsv
          · intro a i ha
            by_cases h0a : a = 0
            · exact Or.inl h0a
            · have ha' : cids a = some i := ha
              rw [hcid a h0a] at ha'
              rcases hi.idsOnly a i ha' with h | ⟨s, h1, h2, h3⟩
              · exact Or.inl h
              · refine Or.inr ⟨s, ?_, h2, h3⟩
                show put st.copies r 0 s = some a
                unfold put
                rw [if_neg (by intro e; subst e; exact h2 hv)]
                exact h1
        · refine ⟨?_, fun _ _ => rfl, Nat.le_refl _, Nat.le_refl _⟩
          intro x c hx
          show put st.copies r 0 x = some c
          unfold put
          rw [if_neg (by intro e; subst e; rw [hx] at hcop; cases hcop)]
          exact hx
        · show put st.copies r 0 r = some 0
          simp [put]
      · -- an object
        rw [register_obj ids (by rw [hobj]; exact hv), hobj]
        have hok : NodeOk (h0.objs r) := hw.slices r hr
        obtain ⟨n1, n2, n3, n4⟩ := copyNode_spec (h0.objs r) st.heap.nextArr hok
        have hnv1 : (copyNode (h0.objs r) st.heap.nextArr).1 ≠ .void := fun hh => hv ((copyNode_void _ _).1 hh)
        generalize hcn : (copyNode (h0.objs r) st.heap.nextArr).1 = cn at n1 n3 n4 hnv1
        generalize hna : (copyNode (h0.objs r) st.heap.nextArr).2 = na at n2 n3
        simp only
        generalize hcids : (match ids r with | some id => put st.copiedIDs st.heap.next id | none => st.copiedIDs) = cids
        generalize hst1 : (⟨⟨fun x => if x = st.heap.next then cn else st.heap.objs x, st.heap.next + 1, na⟩, put st.copies r st.heap.next, cids⟩ : State) = st1
        have e_next : st1.heap.next = st.heap.next + 1 := by rw [← hst1]
        have e_arr : st1.heap.nextArr = na := by rw [← hst1]
        have e_copies : st1.copies = put st.copies r st.heap.next := by rw [← hst1]
        have e_ids : st1.copiedIDs = cids := by rw [← hst1]
        have e_new : st1.heap.objs st.heap.next = cn := by rw [← hst1]; simp
        have e_old : ∀ x, x ≠ st.heap.next → st1.heap.objs x = st.heap.objs x := by intro x hx; rw [← hst1]; simp [hx]
        have hle := hi.le
        have hput : ∀ s b, st1.copies s = some b → s = r ∧ b = st.heap.next ∨ s ≠ r ∧ st.copies s = some b := by
          intro s b hb
          rw [e_copies] at hb
          unfold put at hb
          by_cases hs : s = r
          · rw [if_pos hs] at hb; cases hb; exact Or.inl ⟨hs, rfl⟩
          · rw [if_neg hs] at hb; exact Or.inr ⟨hs, hb⟩
        have hkeep : ∀ s b, st.copies s = some b → st1.copies s = some b := by
          intro s b hb
          rw [e_copies]
          unfold put
          rw [if_neg (by intro e; subst e; rw [hb] at hcop; cases hcop)]
          exact hb
        have hself : st1.copies r = some st.heap.next := by rw [e_copies]; simp [put]
        have hlt : ∀ s b, st.copies s = some b → b < st.heap.next := by
          intro s b hb
          by_cases hsv : h0.objs s = .void
          · have := hi.void s b hb hsv; omega
          · exact (hi.addr s b hb hsv).2
        have hcid : ∀ a, a ≠ st.heap.next → cids a = st.copiedIDs a := by
          intro a ha
          rw [← hcids]
          cases ids r with
          | none => rfl
          | some id => simp [put, ha]
        have hcid_new : cids st.heap.next = ids r := by
          rw [← hcids]
          cases hid : ids r with
          | some id => simp [put]
          | none =>
            show st.copiedIDs st.heap.next = none
            cases hx : st.copiedIDs st.heap.next with
            | none => rfl
            | some i =>
              exfalso
              rcases hi.idsOnly _ i hx with h | ⟨s, h1, h2, _⟩
              · omega
              · have := hlt s _ h1; omega
        have hinv1 : Inv h0 ids c0 (r :: P) st1 := by
          constructor
          · intro x hx
            rw [e_old x (by omega)]
            exact hi.old x hx
          · omega
          · have := hi.leArr; omega
          · intro s b hb
            rcases hput s b hb with ⟨e, _⟩ | ⟨_, e⟩
            · rw [e]; exact hr
            · exact hi.dom s b e
          · intro s b hb hsv
            rcases hput s b hb with ⟨e, _⟩ | ⟨_, e⟩
            · rw [e] at hsv; exact absurd hsv hv
            · exact hi.void s b e hsv
          · intro s b hb hsv
            rcases hput s b hb with ⟨_, e⟩ | ⟨_, e⟩
            · omega
            · have := hi.addr s b e hsv; omega
          · intro s t b hs ht hsv
            rcases hput s b hs with ⟨e1, e2⟩ | ⟨e1, e2⟩
            · rcases hput t b ht with ⟨f1, f2⟩ | ⟨f1, f2⟩
              · rw [e1, f1]
              · have := hlt t b f2; omega
            · rcases hput t b ht with ⟨f1, f2⟩ | ⟨f1, f2⟩
              · have := hlt s b e2; omega
              · exact hi.inj s t b e2 f2 hsv
          · intro s b hb hsv
            rcases hput s b hb with ⟨_, e⟩ | ⟨_, e⟩
            · rw [e, e_new, e_arr]
              have := hi.leArr
              exact ⟨fun x hx => by have := n3 x hx; omega, n4⟩
            · have hb' := hlt s b e
              rw [e_old b (by omega), e_arr]
              obtain ⟨a1, a2⟩ := hi.arrs s b e hsv
              exact ⟨fun x hx => by have := a1 x hx; omega, a2⟩
          · intro s t b c hs ht hsv htv hne x hx hx'
            rcases hput s b hs with ⟨e1, e2⟩ | ⟨e1, e2⟩
            · rcases hput t c ht with ⟨f1, f2⟩ | ⟨f1, f2⟩
              · exact hne (e1.trans f1.symm)
              · rw [e2, e_new] at hx
                rw [e_old c (by have := hlt t c f2; omega)] at hx'
                have := n3 x hx
                have := (hi.arrs t c f2 htv).1 x hx'
                omega
            · rcases hput t c ht with ⟨f1, f2⟩ | ⟨f1, f2⟩
              · rw [f2, e_new] at hx'
                rw [e_old b (by have := hlt s b e2; omega)] at hx
                have := n3 x hx'
                have := (hi.arrs s b e2 hsv).1 x hx
                omega
              · rw [e_old b (by have := hlt s b e2; omega)] at hx
                rw [e_old c (by have := hlt t c f2; omega)] at hx'
                exact hi.disj s t b c e2 f2 hsv htv hne x hx hx'
          · intro s b hb hsP
            rcases hput s b hb with ⟨e, _⟩ | ⟨_, e⟩
            · exact absurd (by rw [e]; exact List.mem_cons_self) hsP
            · obtain ⟨d1, d2⟩ := hi.done s b e (fun hh => hsP (List.mem_cons_of_mem _ hh))
              refine ⟨?_, fun c hc => by obtain ⟨k, hk⟩ := d2 c hc; exact ⟨k, hkeep c k hk⟩⟩
              rw [e_old b (by have := hlt s b e; omega), d1]
              apply map_congr_targets
              intro x hx
              rw [← childRefs_targets] at hx
              obtain ⟨k, hk⟩ := d2 x hx
              rw [phi_some hk, phi_some (hkeep x k hk)]
          · intro s b hb h0c hsv
            rw [e_ids]
            rcases hput s b hb with ⟨e1, e2⟩ | ⟨_, e⟩
            · rw [e2, e1]; exact hcid_new
            · rw [hcid b (by have := hlt s b e; omega)]
              exact hi.idsOf s b e h0c hsv
          · intro a i ha
            rw [e_ids] at ha
            by_cases hax : a = st.heap.next
            · subst hax
              rw [hcid_new] at ha
              exact Or.inr ⟨r, hself, hv, ha⟩
            · rw [hcid a hax] at ha
              rcases hi.idsOnly a i ha with h | ⟨s, h1, h2, h3⟩
              · exact Or.inl h
              · exact Or.inr ⟨s, hkeep s a h1, h2, h3⟩
        have hext1 : Ext st st1 := ⟨hkeep, fun x hx => e_old x (by omega), by omega, by omega⟩
        have hcr : childRefs cn = childRefs (h0.objs r) := by rw [childRefs_targets, childRefs_targets, n1]
        have hcnt : cnt h0 st1 < fuel := by
          have := cnt_put h0 (st := st) (st' := st1) r st.heap.next hr hcop e_copies
          omega
        obtain ⟨st2, l2, i2, x2, m2⟩ := copyList_spec h0 ids c0 (P := r :: P) (F := fuel) (f := copyType ids fuel)
          (fun s t hs ht hc' => copyType_spec hw fuel (r :: P) s t hs ht hc') (childRefs cn) st1 hinv1
          (by rw [hcr, childRefs_targets]; exact hw.closed r hr) hcnt
        rw [l2]
        simp only
        have hnext2 : st.heap.next < st2.heap.next := by have := x2.le; omega
        have hcop2 : st2.copies r = some st.heap.next := x2.copies r _ hself
        have hobj2 : st2.heap.objs st.heap.next = cn := by rw [x2.objs _ (by omega), e_new]
        generalize hst3 : ({ st2 with heap := { st2.heap with objs := fun x => if x = st.heap.next then setRefs cn ((childRefs cn).map (phi st2)) else st2.heap.objs x } } : State) = st3
        have g_next : st3.heap.next = st2.heap.next := by rw [← hst3]
        have g_arr : st3.heap.nextArr = st2.heap.nextArr := by rw [← hst3]
        have g_copies : st3.copies = st2.copies := by rw [← hst3]
        have g_ids : st3.copiedIDs = st2.copiedIDs := by rw [← hst3]
        have g_new : st3.heap.objs st.heap.next = setRefs cn ((childRefs cn).map (phi st2)) := by rw [← hst3]; simp
        have g_old : ∀ x, x ≠ st.heap.next → st3.heap.objs x = st2.heap.objs x := by intro x hx; rw [← hst3]; simp [hx]
        have g_phi : phi st3 = phi st2 := by funext x; unfold phi; rw [g_copies]
        have g_arrays : ∀ x, arrays (st3.heap.objs x) = arrays (st2.heap.objs x) := by
          intro x
          by_cases hx : x = st.heap.next
          · rw [hx, g_new, hobj2, setRefs_arrays]
          · rw [g_old x hx]
        refine ⟨st.heap.next, st3, rfl, ⟨?_, ?_, ?_⟩⟩
        · constructor
          · intro x hx
            rw [g_old x (by omega)]
            exact i2.old x hx
          · rw [g_next]; exact i2.le
          · rw [g_arr]; exact i2.leArr
          · rw [g_copies]; exact i2.dom
          · rw [g_copies]; exact i2.void
          · rw [g_copies, g_next]; exact i2.addr
          · rw [g_copies]; exact i2.inj
          · intro s b hb hsv
            rw [g_copies] at hb
            rw [g_arrays, g_arr]
            exact i2.arrs s b hb hsv
          · intro s t b c hs ht hsv htv hne
            rw [g_copies] at hs ht
            rw [g_arrays, g_arrays]
            exact i2.disj s t b c hs ht hsv htv hne
          · intro s b hb hsP
            rw [g_copies] at hb ⊢
            rw [g_phi]
            by_cases hsr : s = r
            · subst hsr
              rw [hcop2] at hb
              cases hb
              rw [g_new]
              refine ⟨setRefs_view cn (h0.objs s) (phi st2) n1, ?_⟩
              rw [← hcr]
              exact m2
            · obtain ⟨d1, d2⟩ := i2.done s b hb (fun hh => by rcases List.mem_cons.1 hh with h | h; exact hsr h; exact hsP h)
              have hbne : b ≠ st.heap.next := by
                intro e
                subst e
                exact hsr (i2.inj r s _ hcop2 hb hv).symm
              rw [g_old b hbne]
              exact ⟨d1, d2⟩
          · rw [g_copies, g_ids]; exact i2.idsOf
          · rw [g_copies, g_ids]; exact i2.idsOnly
        · refine ⟨?_, ?_, ?_, ?_⟩
          · intro x c hx
            rw [g_copies]
            exact x2.copies x c (hkeep x c hx)
          · intro x hx
            rw [g_old x (by omega), x2.objs x (by omega), e_old x (by omega)]
          · rw [g_next]; omega
          · rw [g_arr]
            have := x2.leArr
            have := hext1.leArr
            omega
        · rw [g_copies]; exact hcop2

theorem cnt_bound (st : State) : cnt h0 st ≤ h0.next := by
  unfold cnt
  have := List.length_filter_le (fun x => (st.copies x).isNone) (List.range h0.next)
  rwa [List.length_range] at this

theorem copyTypes_spec (hw : Heap.WF h0) (fuel : Nat) (hf : h0.next < fuel) : ∀ (ts : List (Nat × Nat)) (st : State), Inv h0 ids c0 [] st → (∀ e ∈ ts, e.2 < h0.next) →
    ∃ st', copyTypes ids fuel ts st = some (ts.map (fun e => (e.1, phi st' e.2)), st') ∧ Inv h0 ids c0 [] st' ∧ Ext st st' ∧ ∀ e ∈ ts, ∃ b, st'.copies e.2 = some b
  | [], st, hi, _ => ⟨st, rfl, hi, Ext.refl st, by intro e h; cases h⟩
  | (id, t) :: ts, st, hi, hr => by
    obtain ⟨a, st1, e1, p1⟩ := copyType_spec h0 ids c0 hw fuel [] st t hi (hr (id, t) List.mem_cons_self) (Nat.lt_of_le_of_lt (cnt_bound h0 st) hf)
    obtain ⟨st2, e2, i2, x2, m2⟩ := copyTypes_spec hw fuel hf ts st1 p1.inv (fun s hs => hr s (List.mem_cons_of_mem _ hs))
    have hcop := x2.copies t a p1.copied
    refine ⟨st2, ?_, i2, p1.ext.trans x2, ?_⟩
    · simp only [copyTypes, e1, e2, List.map_cons, phi_some hcop]
    · intro s hs
      rcases List.mem_cons.1 hs with h | h
      · subst h; exact ⟨a, hcop⟩
      · exact m2 s h

/-- With no call under way, everything reachable from a copied type has been copied. -/
theorem reach_copied {st : State} (hi : Inv h0 ids c0 [] st) {r x : Nat} (h : Reach h0 r x) (hr : ∃ b, st.copies r = some b) : ∃ b, st.copies x = some b := by
  induction h with
  | refl => exact hr
  | step _ hz ih =>
    obtain ⟨b, hb⟩ := ih
    refine (hi.done _ b hb (by simp)).2 _ ?_
    rw [childRefs_targets]
    exact hz

theorem isCopy_of {st : State} (hw : Heap.WF h0) (hi : Inv h0 ids c0 [] st) (p : Nat → Prop) (hp : ∀ x, p x → ∃ b, st.copies x = some b) : IsCopy h0 st.heap p (phi st) where
  old := hi.old
  same x hx := by
    obtain ⟨b, hb⟩ := hp x hx
    rw [phi_some hb]
    exact (hi.done x b hb (by simp)).1
  fresh x hx hv := by
    obtain ⟨b, hb⟩ := hp x hx
    rw [phi_some hb]
    exact hi.addr x b hb hv
  inj x y hx hy hv he := by
    obtain ⟨b, hb⟩ := hp x hx
    obtain ⟨c, hc⟩ := hp y hy
    rw [phi_some hb, phi_some hc] at he
    subst he
    exact hi.inj x y b hb hc hv
  freshArrays x hx := by
    obtain ⟨b, hb⟩ := hp x hx
    rw [phi_some hb]
    by_cases hv : h0.objs x = .void
    · rw [hi.void x b hb hv, hi.old 0 hw.pos, hw.nil]
      exact ⟨(by intro a ha; cases ha), (by simp [arrays])⟩
    · obtain ⟨a1, a2⟩ := hi.arrs x b hb hv
      exact ⟨fun a ha => (a1 a ha).1, a2⟩
  disjoint x y hx hy hne a ha ha' := by
    obtain ⟨b, hb⟩ := hp x hx
    obtain ⟨c, hc⟩ := hp y hy
    rw [phi_some hb] at ha
    rw [phi_some hc] at ha'
    have hn : ∀ z w, st.copies z = some w → a ∈ arrays (st.heap.objs w) → h0.objs z ≠ .void := by
      intro z w hz haw hv
      rw [hi.void z w hz hv, hi.old 0 hw.pos, hw.nil] at haw
      cases haw
    exact hi.disj x y b c hb hc (hn x b hb ha) (hn y c hc ha') hne a ha ha'

end

theorem inv_start (h : Heap) (ids c0 : Nat → Option Nat) : Inv h ids c0 [] ⟨h, fun _ => none, fun _ => none⟩ where
  old _ _ := rfl
  le := Nat.le_refl _
  leArr := Nat.le_refl _
  dom _ _ h := by cases h
  void _ _ h := by cases h
  addr _ _ h := by cases h
  inj _ _ _ h := by cases h
  arrs _ _ h := by cases h
  disj _ _ _ _ h := by cases h
  done _ _ h := by cases h
  idsOf _ _ h := by cases h
  idsOnly _ _ h := by cases h

/-- **C72.** `Copy` returns, for every type, however cyclic, and gives an independent copy of all that the type refers to. -/
theorem copy_independent (h : Heap) (hw : Heap.WF h) (r : Nat) (hr : r < h.next) (fuel : Nat) (hf : h.next < fuel) :
    ∃ φ h', copy fuel r h = some (φ r, h') ∧ IsCopy h h' (Reach h r) φ := by
  obtain ⟨a, st, e, p⟩ := copyType_spec h (fun _ => none) (fun _ => none) hw fuel [] ⟨h, fun _ => none, fun _ => none⟩ r (inv_start h _ _) hr
    (Nat.lt_of_le_of_lt (cnt_bound h _) hf)
  refine ⟨phi st, st.heap, ?_, isCopy_of h _ _ hw p.inv _ ?_⟩
  · unfold copy
    rw [e, phi_some p.copied]
  · intro x hx
    exact reach_copied h _ _ p.inv hx ⟨a, p.copied⟩

/-- The types a decoder has decoded, and what they refer to. -/
def Known (h : Heap) (d : Decoder) (x : Nat) : Prop := ∃ e ∈ d.types, Reach h e.2 x

/-- **C72.** `Spec.Copy`: the copy has a copy of every type decoded so far under the same ID, and the ID of the copy of a type is the ID of the type. -/
theorem specCopy_independent (h : Heap) (hw : Heap.WF h) (d : Decoder) (hd : ∀ e ∈ d.types, e.2 < h.next) (fuel : Nat) (hf : h.next < fuel) :
    ∃ φ d' h' c', copyDecoder fuel d h (fun _ => none) = some (d', h', c') ∧ IsCopy h h' (Known h d) φ ∧
      d'.types = d.types.map (fun e => (e.1, φ e.2)) ∧ (∀ x, Known h d x → h.objs x ≠ .void → d'.typeIDs (φ x) = d.typeIDs x) ∧
      (∀ a i, d'.typeIDs a = some i → a = 0 ∨ ∃ x, φ x = a ∧ d.typeIDs x = some i) := by
  obtain ⟨st, e, hi, _, hm⟩ := copyTypes_spec h d.typeIDs (fun _ => none) hw fuel hf d.types ⟨h, fun _ => none, fun _ => none⟩ (inv_start h _ _) hd
  have hk : ∀ x, Known h d x → ∃ b, st.copies x = some b := by
    rintro x ⟨t, ht, hx⟩
    exact reach_copied h _ _ hi hx (hm t ht)
  refine ⟨phi st, ⟨d.types.map (fun e => (e.1, phi st e.2)), st.copiedIDs⟩, st.heap, st.copies, ?_, isCopy_of h _ _ hw hi _ hk, rfl, ?_, ?_⟩
  · unfold copyDecoder
    rw [e]
  · intro x hx hv
    obtain ⟨b, hb⟩ := hk x hx
    rw [phi_some hb]
    exact hi.idsOf x b hb rfl hv
  · intro a i ha
    rcases hi.idsOnly a i ha with h1 | ⟨x, h1, _, h2⟩
    · exact Or.inl h1
    · exact Or.inr ⟨x, phi_some h1, h2⟩

/-- **C72.** `Spec.Copy` of split BTF: the types of the module and those of its base are copied as one graph, so a copy of a module type refers to the
copies of base types that the copied base has. -/
theorem splitCopy_independent (h : Heap) (hw : Heap.WF h) (d base : Decoder) (hd : ∀ e ∈ d.types, e.2 < h.next) (hb : ∀ e ∈ base.types, e.2 < h.next)
    (fuel : Nat) (hf : h.next < fuel) :
    ∃ φ d' b' h', copySplit fuel d base h = some (d', b', h') ∧ IsCopy h h' (fun x => Known h d x ∨ Known h base x) φ ∧
      d'.types = d.types.map (fun e => (e.1, φ e.2)) ∧ b'.types = base.types.map (fun e => (e.1, φ e.2)) ∧
      (∀ x, Known h d x → h.objs x ≠ .void → d'.typeIDs (φ x) = d.typeIDs x) := by
  obtain ⟨st, e, hi, _, hm⟩ := copyTypes_spec h d.typeIDs (fun _ => none) hw fuel hf d.types ⟨h, fun _ => none, fun _ => none⟩ (inv_start h _ _) hd
  have hi' : Inv h base.typeIDs st.copies [] ⟨st.heap, st.copies, fun _ => none⟩ :=
    ⟨hi.old, hi.le, hi.leArr, hi.dom, hi.void, hi.addr, hi.inj, hi.arrs, hi.disj, hi.done,
      (fun r a h1 h2 => by have h1' : st.copies r = some a := h1; rw [h1'] at h2; cases h2), (fun a i h1 => by cases h1)⟩
  obtain ⟨st2, e2, hi2, hx2, hm2⟩ := copyTypes_spec h base.typeIDs st.copies hw fuel hf base.types ⟨st.heap, st.copies, fun _ => none⟩ hi' hb
  have hkd : ∀ x, Known h d x → ∃ b, st.copies x = some b := by
    rintro x ⟨t, ht, hx⟩
    exact reach_copied h _ _ hi hx (hm t ht)
  have hphi : ∀ x b, st.copies x = some b → phi st2 x = b := fun x b hb => phi_some (hx2.copies x b hb)
  refine ⟨phi st2, ⟨d.types.map (fun e => (e.1, phi st e.2)), st.copiedIDs⟩, ⟨base.types.map (fun e => (e.1, phi st2 e.2)), st2.copiedIDs⟩, st2.heap, ?_, ?_, ?_, rfl, ?_⟩
  · unfold copySplit copyDecoder
    rw [e]
    simp only
    rw [e2]
  · refine isCopy_of h _ _ hw hi2 _ ?_
    rintro x (hx | ⟨t, ht, hx⟩)
    · obtain ⟨b, hb⟩ := hkd x hx
      exact ⟨b, hx2.copies x b hb⟩
    · exact reach_copied h _ _ hi2 hx (hm2 t ht)
  · apply List.map_congr_left
    intro t ht
    obtain ⟨b, hb⟩ := hm t ht
    rw [hphi _ b hb, phi_some hb]
  · intro x hx hv
    obtain ⟨b, hb⟩ := hkd x hx
    rw [hphi x b hb]
    exact hi.idsOf x b hb rfl hv

/-! ## examples -/

/-- `struct list { struct list *next; int v; }` with a tag on `v`: 1 is the struct, 2 the pointer, 3 the int. -/
def exHeap : Heap where
  objs
    | 1 => .struct [1#8] 16#32 ⟨some 0, [⟨[2#8], 2, 0#32, 0#32, ⟨none, []⟩⟩, ⟨[3#8], 3, 64#32, 0#32, ⟨some 1, [[7#8]]⟩⟩]⟩ ⟨none, []⟩
    | 2 => .ptr 1
    | 3 => .int [4#8] 4#32 1#8
    | _ => .void
  next := 4
  nextArr := 2

theorem exHeap_wf : Heap.WF exHeap where
  nil := rfl
  pos := by decide
  closed := by decide
  arrays := by decide
  slices x _ := by
    unfold exHeap
    simp only
    split <;> trivial

/-- The copy of the cyclic struct is at 4, its pointer at 5, which points back at 4; the arrays are new. -/
example : (copy 5 1 exHeap).map (fun r => (r.1, r.2.objs 4, r.2.objs 5)) =
    some (4, .struct [1#8] 16#32 ⟨some 2, [⟨[2#8], 5, 0#32, 0#32, ⟨none, []⟩⟩, ⟨[3#8], 6, 64#32, 0#32, ⟨some 3, [[7#8]]⟩⟩]⟩ ⟨none, []⟩, .ptr 4) := by decide

example : ∃ φ h', copy 5 1 exHeap = some (φ 1, h') ∧ IsCopy exHeap h' (Reach exHeap 1) φ := copy_independent exHeap exHeap_wf 1 (by decide) 5 (by decide)

/-- A decoder that has decoded all three types, and a split one for which 1 is its own and the others belong to the base. -/
example : ∃ (φ : Nat → Nat) (d' b' : Decoder) (h' : Heap), copySplit 5 ⟨[(9, 1)], fun x => if x = 1 then some 9 else none⟩ ⟨[(1, 2), (2, 3)], fun x => if x = 2 then some 1 else if x = 3 then some 2 else none⟩ exHeap =
      some (d', b', h') ∧ d'.typeIDs (φ 1) = some 9 := by
  obtain ⟨φ, d', b', h', e, _, _, _, hx⟩ := splitCopy_independent exHeap exHeap_wf ⟨[(9, 1)], fun x => if x = 1 then some 9 else none⟩
    ⟨[(1, 2), (2, 3)], fun x => if x = 2 then some 1 else if x = 3 then some 2 else none⟩ (by decide) (by decide) 5 (by decide)
  exact ⟨φ, d', b', h', e, hx 1 ⟨(9, 1), by simp, .refl⟩ (by decide)⟩

/-- The base of a copied split spec does not know the IDs of the base types the module refers to. (Only `TypeID` of the base itself would tell; the
copy of the base is not accessible.) -/
theorem base_ids_lost : (copySplit 5 ⟨[(9, 1)], fun x => if x = 1 then some 9 else none⟩
    ⟨[(1, 2), (2, 3)], fun x => if x = 2 then some 1 else if x = 3 then some 2 else none⟩ exHeap).map (fun r => (r.2.1.types, r.2.1.types.map fun e => r.2.1.typeIDs e.2)) =
    some ([(1, 5), (2, 6)], [none, none]) := by decide

end Ebpf.BtfCopy
