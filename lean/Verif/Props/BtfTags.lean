import Verif.Props.BtfIds
/-! # C26: the order in which tags are written -/
namespace Ebpf.Btf
open BtfSpec
set_option linter.unusedSectionVars false

variable {R : Type} [DecidableEq R]

/-- Is `t` a tag of `r`? -/
def isTagOf (r : R) : TRef R → Bool
  | .tag p _ _ _ => p = r
  | _ => false

/-- The tags of a type, in the order of `children`. -/
def tagsOfObj (g : Graph R) (r : R) : List (TRef R) := (childrenObj g r).filter (isTagOf r)

/-- `tagRefs`, numbering from `c`. -/
def tagRefsFrom (p : R) (idx : Int) : Nat → List Bytes → List (TRef R)
  | _, [] => []
  | c, v :: vs => .tag p v idx c :: tagRefsFrom p idx (c + 1) vs

theorem tagRefs_from (p : R) (idx : Int) (ts : List Bytes) : tagRefs p idx ts = tagRefsFrom p idx 0 ts := by
  have : ∀ (ts : List Bytes) (c : Nat), ts.mapIdx (fun k v => TRef.tag p v idx (c + k)) = tagRefsFrom p idx c ts := by
    intro ts
    induction ts with
    | nil => intro c; rfl
    | cons t ts ih =>
      intro c
      rw [List.mapIdx_cons, tagRefsFrom, ← ih (c + 1)]
      simp only [Nat.add_zero, List.cons.injEq, true_and]
      congr 1; funext k v; congr 1; omega
  rw [← this ts 0]
  simp [tagRefs]

/-- Tags of components numbered from `c`. -/
def compTags (p : R) : Nat → List (List Bytes) → List (TRef R)
  | _, [] => []
  | c, ts :: rest => tagRefsFrom p (c : Int) 0 ts ++ compTags p (c + 1) rest

theorem isTagOf_tagRefsFrom (p : R) (idx : Int) : ∀ (ts : List Bytes) (c : Nat), (tagRefsFrom p idx c ts).filter (isTagOf p) = tagRefsFrom p idx c ts
  | [], c => rfl
  | t :: ts, c => by simp [tagRefsFrom, isTagOf, isTagOf_tagRefsFrom p idx ts]

theorem memberRefs_tags (p : R) (ms : List (Member R)) : (memberRefs p ms).filter (isTagOf p) = compTags p 0 (ms.map (·.tags)) := by
  have : ∀ (ms : List (Member R)) (c : Nat), ((ms.mapIdx fun i m => .obj m.type :: tagRefs p ((c + i : Nat) : Int) m.tags).flatten).filter (isTagOf p) = compTags p c (ms.map (·.tags)) := by
    intro ms
    induction ms with
    | nil => intro c; rfl
    | cons m ms ih =>
      intro c
      rw [List.mapIdx_cons, List.flatten_cons, List.filter_append, List.map_cons, compTags, ← ih (c + 1)]
      congr 1
      · simp [isTagOf, tagRefs_from, isTagOf_tagRefsFrom]
      · have : (fun (i : Nat) (m : Member R) => TRef.obj m.type :: tagRefs p ((c + (i + 1) : Nat) : Int) m.tags) = fun i m => TRef.obj m.type :: tagRefs p ((c + 1 + i : Nat) : Int) m.tags := by
          funext i m; rw [show c + (i + 1) = c + 1 + i by omega]
        rw [this]
  have := this ms 0
  simpa [memberRefs] using this

theorem paramTagRefs_tags (p : R) (n : Nat) (pts : List (List Bytes)) : (paramTagRefs p n pts).filter (isTagOf p) = compTags p 0 (pts.take n) := by
  have : ∀ (ms : List (List Bytes)) (c : Nat), ((ms.mapIdx fun i ts => tagRefs p ((c + i : Nat) : Int) ts).flatten).filter (isTagOf p) = compTags p c ms := by
    intro ms
    induction ms with
    | nil => intro c; rfl
    | cons m ms ih =>
      intro c
      rw [List.mapIdx_cons, List.flatten_cons, List.filter_append, compTags, ← ih (c + 1)]
      congr 1
      · simp [tagRefs_from, isTagOf_tagRefsFrom]
      · have : (fun (i : Nat) (ts : List Bytes) => tagRefs p ((c + (i + 1) : Nat) : Int) ts) = fun i ts => tagRefs p ((c + 1 + i : Nat) : Int) ts := by
          funext i m; rw [show c + (i + 1) = c + 1 + i by omega]
        rw [this]
  have := this (pts.take n) 0
  simpa [paramTagRefs] using this

/-- Tags by component, then those of the type as a whole. -/
theorem tagsOfObj_eq (g : Graph R) (r : R) : tagsOfObj g r =
    match g r with
    | .struct _ _ ms ts => compTags r 0 (ms.map (·.tags)) ++ tagRefsFrom r (-1) 0 ts
    | .union _ _ ms ts => compTags r 0 (ms.map (·.tags)) ++ tagRefsFrom r (-1) 0 ts
    | .typedef _ _ ts => tagRefsFrom r (-1) 0 ts
    | .var _ _ _ ts => tagRefsFrom r (-1) 0 ts
    | .func _ t _ ts pts => compTags r 0 (pts.take (protoLen (g t))) ++ tagRefsFrom r (-1) 0 ts
    | _ => [] := by
  unfold tagsOfObj childrenObj
  cases hg : g r <;> simp [memberRefs_tags, paramTagRefs_tags, tagRefs_from, isTagOf_tagRefsFrom, isTagOf]

theorem tagRefsFrom_mem (p : R) (idx : Int) : ∀ (ts : List Bytes) (c : Nat) (t : TRef R), t ∈ tagRefsFrom p idx c ts → ∃ v k, t = .tag p v idx k ∧ c ≤ k
  | [], c, t, h => by cases h
  | v :: vs, c, t, h => by
    simp only [tagRefsFrom, List.mem_cons] at h
    rcases h with rfl | h
    · exact ⟨v, c, rfl, Nat.le_refl _⟩
    · obtain ⟨v', k, rfl, hk⟩ := tagRefsFrom_mem p idx vs (c + 1) t h
      exact ⟨v', k, rfl, by omega⟩

theorem tagRefsFrom_nodup (p : R) (idx : Int) : ∀ (ts : List Bytes) (c : Nat), (tagRefsFrom p idx c ts).Nodup
  | [], c => by simp [tagRefsFrom]
  | v :: vs, c => by
    simp only [tagRefsFrom, List.nodup_cons]
    refine ⟨?_, tagRefsFrom_nodup p idx vs (c + 1)⟩
    intro h
    obtain ⟨v', k, he, hk⟩ := tagRefsFrom_mem p idx vs (c + 1) _ h
    cases he; omega

theorem compTags_mem (p : R) : ∀ (l : List (List Bytes)) (c : Nat) (t : TRef R), t ∈ compTags p c l → ∃ (v : Bytes) (i k : Nat), t = .tag p v (i : Int) k ∧ c ≤ i
  | [], c, t, h => by cases h
  | ts :: l, c, t, h => by
    simp only [compTags, List.mem_append] at h
    rcases h with h | h
    · obtain ⟨v, k, rfl, _⟩ := tagRefsFrom_mem p _ ts 0 t h
      exact ⟨v, c, k, rfl, Nat.le_refl _⟩
    · obtain ⟨v', i, k, rfl, hk⟩ := compTags_mem p l (c + 1) t h
      exact ⟨v', i, k, rfl, by omega⟩

theorem compTags_nodup (p : R) : ∀ (l : List (List Bytes)) (c : Nat), (compTags p c l).Nodup
  | [], c => by simp [compTags]
  | ts :: l, c => by
    simp only [compTags, List.nodup_append]
    refine ⟨tagRefsFrom_nodup p _ ts 0, compTags_nodup p l (c + 1), ?_⟩
    intro a ha b hb e
    obtain ⟨v, k, rfl, _⟩ := tagRefsFrom_mem p _ ts 0 a ha
    obtain ⟨v', i, k', he, hk⟩ := compTags_mem p l (c + 1) b hb
    rw [← e] at he
    cases he; omega

theorem tagsOfObj_nodup (g : Graph R) (r : R) : (tagsOfObj g r).Nodup := by
  rw [tagsOfObj_eq]
  have key : ∀ (l : List (List Bytes)) (ts : List Bytes), (compTags r 0 l ++ tagRefsFrom r (-1) 0 ts).Nodup := by
    intro l ts
    rw [List.nodup_append]
    refine ⟨compTags_nodup r l 0, tagRefsFrom_nodup r _ ts 0, ?_⟩
    intro a ha b hb e
    obtain ⟨v, i, k, rfl, _⟩ := compTags_mem r l 0 a ha
    obtain ⟨v', k', he, _⟩ := tagRefsFrom_mem r _ ts 0 b hb
    rw [← e] at he
    injection he with _ _ he
    omega
  split <;> first | exact key _ _ | exact tagRefsFrom_nodup r _ _ 0 | exact List.nodup_nil

/-- The parents of all tags visited have been visited. -/
def TagsOK (vis : List (TRef R)) : Prop := ∀ p v i k, TRef.tag p v i k ∈ vis → TRef.obj p ∈ vis

/-- The tags yielded by a traversal: all tags of the types expanded, in order, and those among the roots `cs`. -/
structure TagOut (g : Graph R) (cs vis out vis' : List (TRef R)) : Prop where
  ok : TagsOK vis'
  mono : ∀ x ∈ vis, x ∈ vis'
  out_ : ∀ r, out.filter (isTagOf r) = if TRef.obj r ∈ vis then cs.filter (isTagOf r) else if TRef.obj r ∈ vis' then tagsOfObj g r else []
  new : ∀ p v i k, TRef.tag p v i k ∈ vis' → TRef.tag p v i k ∈ vis ∨ TRef.tag p v i k ∈ cs ∨ TRef.obj p ∉ vis

theorem visitList_tags (g : Graph R) (v : TRef R → List (TRef R) → Option (List (TRef R) × List (TRef R)))
    (hv : ∀ c vis o vis', v c vis = some (o, vis') → TagsOK vis → (∀ p w i k, c = .tag p w i k → .obj p ∈ vis ∧ c ∉ vis) → TagOut g [c] vis o vis') :
    ∀ (cs vis o vis' : List (TRef R)), visitList v cs vis = some (o, vis') → TagsOK vis →
      (∀ p w i k, TRef.tag p w i k ∈ cs → .obj p ∈ vis ∧ TRef.tag p w i k ∉ vis) → (∀ r, (cs.filter (isTagOf r)).Nodup) → TagOut g cs vis o vis'
  | [], vis, o, vis', h, hok, _, _ => by
    simp only [visitList, Option.some.injEq, Prod.mk.injEq] at h
    obtain ⟨rfl, rfl⟩ := h
    exact ⟨hok, fun _ h => h, by intro r; simp; exact fun h h' => absurd h' h, by intro p v i k h; exact .inl h⟩
  | c :: cs, vis, o, vis', h, hok, hroots, hnd => by
    unfold visitList at h
    cases h1 : v c vis with
    | none => rw [h1] at h; cases h
    | some q =>
      obtain ⟨o1, v1⟩ := q
      rw [h1] at h; dsimp only at h
      cases h2 : visitList v cs v1 with
      | none => rw [h2] at h; cases h
      | some q =>
        obtain ⟨o2, v2⟩ := q
        rw [h2] at h
        cases h
        have t1 := hv c vis o1 v1 h1 hok (by rintro p w i k rfl; exact hroots p w i k (by simp))
        have t2 := visitList_tags g v hv cs v1 o2 vis' h2 t1.ok (by
          intro p w i k hm
          obtain ⟨r1, r2⟩ := hroots p w i k (by simp [hm])
          refine ⟨t1.mono _ r1, ?_⟩
          intro hin
          rcases t1.new p w i k hin with h | h | h
          · exact r2 h
          · simp only [List.mem_singleton] at h
            have := hnd p
            rw [← h] at this
            simp only [List.filter_cons, isTagOf, decide_true, if_true, List.nodup_cons, List.mem_filter, and_true] at this
            exact this.1 hm
          · exact h r1) (by
          intro r
          have := hnd r
          rw [List.filter_cons] at this
          split at this
          · exact (List.nodup_cons.1 this).2
          · exact this)
        refine ⟨t2.ok, fun x hx => t2.mono x (t1.mono x hx), ?_, ?_⟩
        · intro r
          rw [List.filter_append, t1.out_ r, t2.out_ r]
          by_cases hr : TRef.obj r ∈ vis
          · have hr1 := t1.mono _ hr
            rw [if_pos hr, if_pos hr1, if_pos hr, List.filter_cons]
            simp only [List.filter_cons, List.filter_nil]
            split <;> simp
          · rw [if_neg hr, if_neg hr]
            by_cases hr1 : TRef.obj r ∈ v1
            · have hr2 := t2.mono _ hr1
              have : cs.filter (isTagOf r) = [] := by
                rw [List.filter_eq_nil_iff]
                intro t ht
                cases t with
                | tag p w i k =>
                  simp only [isTagOf, decide_eq_true_eq]
                  rintro rfl
                  exact hr (hroots p w i k (by simp [ht])).1
                | _ => simp [isTagOf]
              rw [if_pos hr1, if_pos hr1, if_pos hr2, this]; simp
            · rw [if_neg hr1, if_neg hr1]; rfl
        · intro p w i k hin
          rcases t2.new p w i k hin with h | h | h
          · rcases t1.new p w i k h with h | h | h
            · exact .inl h
            · right; left
              rw [List.mem_singleton] at h
              rw [h]; exact List.mem_cons_self ..
            · exact .inr (.inr h)
          · exact .inr (.inl (List.mem_cons_of_mem _ h))
          · exact .inr (.inr fun h' => h (t1.mono _ h'))

theorem visit_tags (g : Graph R) : ∀ (fuel : Nat) (root : TRef R) (vis out vis' : List (TRef R)), visit (children g) fuel root vis = some (out, vis') →
    TagsOK vis → (∀ p w i k, root = .tag p w i k → .obj p ∈ vis ∧ root ∉ vis) → TagOut g [root] vis out vis'
  | 0, root, vis, out, vis', h, _, _ => by simp [visit] at h
  | fuel + 1, root, vis, out, vis', h, hok, hroot => by
    unfold visit at h
    by_cases hr : root ∈ vis
    · rw [if_pos hr] at h
      simp only [Option.some.injEq, Prod.mk.injEq] at h
      obtain ⟨rfl, rfl⟩ := h
      have hnt : ∀ r, isTagOf r root = false := by
        intro r
        cases root with
        | tag p w i k => exact absurd hr (hroot p w i k rfl).2
        | _ => rfl
      exact ⟨hok, fun _ h => h, by intro r; simp [hnt r]; exact fun h h' => absurd h' h, fun p v i k h => .inl h⟩
    · rw [if_neg hr] at h
      cases hl : visitList (visit (children g) fuel) (children g root) (root :: vis) with
      | none => rw [hl] at h; cases h
      | some q =>
        obtain ⟨o, v2⟩ := q
        rw [hl] at h
        cases h
        cases root with
        | obj r0 =>
          have hch : ∀ p w i k, TRef.tag p w i k ∈ childrenObj g r0 → p = r0 := by
            intro p w i k h
            exact ((children_tags g r0 p w i k).1 h).1
          have ok1 : TagsOK (TRef.obj r0 :: vis) := by
            intro p w i k h
            simp only [List.mem_cons, reduceCtorEq, false_or] at h
            exact List.mem_cons_of_mem _ (hok p w i k h)
          have t := visitList_tags g _ (visit_tags g fuel) (childrenObj g r0) (.obj r0 :: vis) o vis' hl ok1 (by
            intro p w i k h
            have := hch p w i k h
            subst this
            refine ⟨List.mem_cons_self .., ?_⟩
            simp only [List.mem_cons, reduceCtorEq, false_or]
            intro h'
            exact hr (hok _ _ _ _ h')) (by
            intro r
            by_cases he : r = r0
            · subst he; exact tagsOfObj_nodup g r
            · have : (childrenObj g r0).filter (isTagOf r) = [] := by
                rw [List.filter_eq_nil_iff]
                intro t ht
                cases t with
                | tag p w i k =>
                  simp only [isTagOf, decide_eq_true_eq]
                  rintro rfl
                  exact he (hch _ _ _ _ ht)
                | _ => simp [isTagOf]
              rw [this]; exact List.nodup_nil)
          refine ⟨t.ok, fun x hx => t.mono x (List.mem_cons_of_mem _ hx), ?_, ?_⟩
          · intro r
            rw [List.filter_append, t.out_ r]
            have hroot' : [TRef.obj r0].filter (isTagOf r) = [] := rfl
            rw [hroot', List.append_nil]
            by_cases he : r = r0
            · subst he
              rw [if_pos (List.mem_cons_self ..), if_neg hr, if_pos (t.mono _ (List.mem_cons_self ..))]
              rfl
            · by_cases hv : TRef.obj r ∈ vis
              · rw [if_pos (List.mem_cons_of_mem _ hv), if_pos hv]
                rw [List.filter_eq_nil_iff]
                intro t ht
                cases t with
                | tag p w i k =>
                  simp only [isTagOf, decide_eq_true_eq]
                  rintro rfl
                  exact he (hch _ _ _ _ ht)
                | _ => simp [isTagOf]
              · rw [if_neg (by simp [he, hv]), if_neg hv]
          · intro p w i k hin
            rcases t.new p w i k hin with h | h | h
            · left; simpa using h
            · right; right; rw [hch p w i k h]; exact hr
            · exact .inr (.inr fun h' => h (List.mem_cons_of_mem _ h'))
        | tag p w i k =>
          simp only [children, visitList, Option.some.injEq, Prod.mk.injEq] at hl
          obtain ⟨rfl, rfl⟩ := hl
          have hp := (hroot p w i k rfl).1
          refine ⟨?_, fun x hx => List.mem_cons_of_mem _ hx, ?_, ?_⟩
          · intro p' w' i' k' h
            simp only [List.mem_cons] at h
            rcases h with h | h
            · cases h; exact List.mem_cons_of_mem _ hp
            · exact List.mem_cons_of_mem _ (hok _ _ _ _ h)
          · intro r
            by_cases hv : TRef.obj r ∈ vis
            · rw [if_pos hv]; rfl
            · rw [if_neg hv, if_neg (by simp [hv])]
              have : p ≠ r := by rintro rfl; exact hv hp
              simp [isTagOf, this]
          · intro p' w' i' k' h
            simp only [List.mem_cons] at h
            rcases h with h | h
            · right; left; rw [h]; exact List.mem_singleton_self _
            · exact .inl h
        | ph p =>
          simp only [children, visitList, Option.some.injEq, Prod.mk.injEq] at hl
          obtain ⟨rfl, rfl⟩ := hl
          refine ⟨?_, fun x hx => List.mem_cons_of_mem _ hx, ?_, ?_⟩
          · intro p' w' i' k' h
            simp only [List.mem_cons, reduceCtorEq, false_or] at h
            exact List.mem_cons_of_mem _ (hok _ _ _ _ h)
          · intro r
            by_cases hv : TRef.obj r ∈ vis
            · rw [if_pos hv]; rfl
            · rw [if_neg hv, if_neg (by simp [hv])]; rfl
          · intro p' w' i' k' h
            simp only [List.mem_cons, reduceCtorEq, false_or] at h
            exact .inl h

theorem assignIDs_pending (g : Graph R) : ∀ (ts : List (TRef R)) (e e' : Enc R), ts.Nodup → assignIDs g ts e = some e' →
    e'.pending = e.pending ++ ts.filter (fun t => decide (extGraph g t ≠ .void) && (e.ids.lookup t).isNone) ∧ e'.visited = e.visited
  | [], e, e', _, h => by cases h; simp
  | t :: ts, e, e', hn, h => by
    rw [List.nodup_cons] at hn
    unfold assignIDs at h
    split at h
    · rename_i hv
      obtain ⟨h1, h2⟩ := assignIDs_pending g ts e e' hn.2 h
      exact ⟨by rw [h1]; simp [hv], h2⟩
    · rename_i hv
      split at h
      · rename_i hs
        obtain ⟨h1, h2⟩ := assignIDs_pending g ts e e' hn.2 h
        refine ⟨?_, h2⟩
        rw [h1, List.filter_cons, if_neg]
        simp only [Bool.and_eq_true, not_and]
        intro _
        cases hl : e.ids.lookup t with
        | none => rw [hl] at hs; cases hs
        | some => simp
      · rename_i hs
        split at h
        · cases h
        · obtain ⟨h1, h2⟩ := assignIDs_pending g ts _ e' hn.2 h
          refine ⟨?_, h2⟩
          rw [h1, List.filter_cons, if_pos]
          · dsimp only
            rw [List.append_assoc]
            congr 1
            simp only [List.cons_append, List.nil_append, List.cons.injEq, true_and]
            apply List.filter_congr
            intro x hx
            rw [List.lookup_cons]
            have : (x == t) = false := by simp; rintro rfl; exact hn.1 hx
            rw [this]
          · simp only [Bool.and_eq_true, decide_eq_true_eq]
            refine ⟨hv, ?_⟩
            cases hl : e.ids.lookup t with
            | none => rfl
            | some => rw [hl] at hs; simp at hs

/-- The tags among the types that have an ID. -/
structure TInv (g : Graph R) (done : List (TRef R)) (e : Enc R) : Prop where
  ok : TagsOK e.visited
  ord : ∀ r, (done ++ e.pending).filter (isTagOf r) = if TRef.obj r ∈ e.visited then tagsOfObj g r else []

theorem TInv.root {g : Graph R} {done : List (TRef R)} {e : Enc R} (h : TInv g done e) (hc : ∀ v ∈ e.visited, ∀ c ∈ children g v, c ∈ e.visited)
    (p : R) (w i k) (hm : TRef.tag p w i k ∈ done ++ e.pending) : TRef.tag p w i k ∈ e.visited := by
  have h1 : TRef.tag p w i k ∈ (done ++ e.pending).filter (isTagOf p) := by
    rw [List.mem_filter]; exact ⟨hm, by simp [isTagOf]⟩
  rw [h.ord p] at h1
  split at h1
  · rename_i hv
    exact hc _ hv _ (List.mem_filter.1 h1).1
  · cases h1

theorem allocateIDs_tags (g : Graph R) (fuel : Nat) (root : TRef R) (done : List (TRef R)) (e e' : Enc R) (hnum : Numbers (List.lookup · e.ids) (done ++ e.pending))
    (ht : TInv g done e) (hroot : ∀ p w i k, root = .tag p w i k → root ∈ e.visited) (h : allocateIDs g fuel root e = some e') : TInv g done e' := by
  unfold allocateIDs at h
  cases hv : visit (children g) fuel root e.visited with
  | none => rw [hv] at h; cases h
  | some q =>
    obtain ⟨out, vis⟩ := q
    rw [hv] at h; dsimp only at h
    have v := visit_visited (children g) _ _ _ _ _ hv
    obtain ⟨hp, hvis⟩ := assignIDs_pending g out { e with visited := vis } e' v.nodup h
    dsimp only at hp hvis
    by_cases hin : root ∈ e.visited
    · -- nothing happens
      have : out = [] ∧ vis = e.visited := by
        cases fuel with
        | zero => simp [visit] at hv
        | succ fuel => unfold visit at hv; rw [if_pos hin] at hv; cases hv; exact ⟨rfl, rfl⟩
      obtain ⟨rfl, rfl⟩ := this
      simp only [List.filter_nil, List.append_nil] at hp
      exact ⟨by rw [hvis]; exact ht.ok, by rw [hp, hvis]; exact ht.ord⟩
    · have t := visit_tags g fuel root e.visited out vis hv ht.ok (by intro p w i k e; exact absurd (hroot p w i k e) hin)
      refine ⟨by rw [hvis]; exact t.ok, ?_⟩
      intro r
      rw [hp, hvis, ← List.append_assoc, List.filter_append, ht.ord r, List.filter_filter]
      have hcomm : out.filter (fun a => isTagOf r a && (decide (extGraph g a ≠ .void) && (e.ids.lookup a).isNone)) =
          (out.filter (isTagOf r)).filter (fun a => decide (extGraph g a ≠ .void) && (e.ids.lookup a).isNone) := by
        rw [List.filter_filter]
        apply List.filter_congr
        intro x _
        rw [Bool.and_comm]
      rw [hcomm, t.out_ r]
      have hroot0 : [root].filter (isTagOf r) = [] := by
        cases root with
        | tag p w i k => exact absurd (hroot p w i k rfl) hin
        | _ => rfl
      by_cases h1 : TRef.obj r ∈ e.visited
      · rw [if_pos h1, if_pos h1, if_pos (t.mono _ h1), hroot0]; simp
      · rw [if_neg h1, if_neg h1]
        by_cases h2 : TRef.obj r ∈ vis
        · rw [if_pos h2, List.nil_append, List.filter_eq_self]
          intro x hx
          have hx' : isTagOf r x = true := (List.mem_filter.1 hx).2
          cases x with
          | tag p w i k =>
            simp only [Bool.and_eq_true, decide_eq_true_eq]
            refine ⟨by simp [extGraph], ?_⟩
            cases hl : e.ids.lookup (TRef.tag p w i k) with
            | none => rfl
            | some id =>
              have := (hnum.2 _ id hl).2
              have hm := List.mem_of_getElem? this
              have hf : TRef.tag p w i k ∈ (done ++ e.pending).filter (isTagOf r) := List.mem_filter.2 ⟨hm, hx'⟩
              rw [ht.ord r, if_neg h1] at hf
              cases hf
          | _ => cases hx'
        · rw [if_neg h2]; rfl

/-- The tags of a type that is written are written in order. -/
theorem deflatePending_tags (o : Opts) (bo : ByteOrder) (g : Graph R) (fuel : Nat) : ∀ (n : Nat) (done : List (TRef R)) (e e' : Enc R) (recs),
    EInv g done e → TInv g done e → deflatePending o bo g fuel n e = some (recs, e') → TInv g (done ++ recs.map (·.1)) e' := by
  intro n
  induction n with
  | zero =>
    intro done e e' recs h1 h2 h
    unfold deflatePending at h
    split at h
    · cases h; simpa using h2
    · cases h
  | succ n ih =>
    intro done e e' recs h1 h2 h
    unfold deflatePending at h
    split at h
    · cases h; simpa using h2
    · rename_i root pending hp
      dsimp only at h
      have hassoc : done ++ root :: pending = (done ++ [root]) ++ pending := by simp
      cases ha : allocateIDs g fuel root { e with pending := pending } with
      | none => rw [ha] at h; cases h
      | some e1 =>
        rw [ha] at h; dsimp only at h
        have hnum := h1.num
        rw [hp, hassoc] at hnum
        have ht0 : TInv g (done ++ [root]) { e with pending := pending } := by
          refine ⟨h2.ok, ?_⟩
          have := h2.ord
          rw [hp, hassoc] at this
          exact this
        have t1 := allocateIDs_tags g fuel root (done ++ [root]) { e with pending := pending } e1 hnum ht0 (by
          rintro p w i k rfl
          exact h2.root h1.closed p w i k (by rw [hp]; simp)) ha
        -- the rest is as in `deflatePending_spec`
        have k1 : EInv g (done ++ [root]) e1 := deflatePending_alloc g fuel root pending done e e1 hp h1 ha
        cases hb : allocatePlaceholder o g fuel root e1 with
        | none => rw [hb] at h; cases h
        | some e2 =>
          rw [hb] at h; dsimp only at h
          obtain ⟨k2, _, _, _, _⟩ := allocatePlaceholder_spec o g fuel root (done ++ [root]) e1 e2 k1 hb
          have t2 : TInv g (done ++ [root]) e2 := by
            unfold allocatePlaceholder at hb
            split at hb
            · split at hb
              · split at hb
                · exact allocateIDs_tags g fuel _ _ e1 e2 k1.num t1 (by rintro p w i k ⟨⟩) hb
                · cases hb; exact t1
              · cases hb; exact t1
            · cases hb; exact t1
          cases hd : deflateType o bo (e2.id g) (placeholderOf root) (extGraph g root) e2.strings with
          | none => rw [hd] at h; cases h
          | some q =>
            obtain ⟨raw, data, sb⟩ := q
            rw [hd] at h; dsimp only at h
            cases hrest : deflatePending o bo g fuel n { e2 with strings := sb } with
            | none => rw [hrest] at h; cases h
            | some q =>
              obtain ⟨rest, e3⟩ := q
              rw [hrest] at h
              cases h
              have w := ih (done ++ [root]) { e2 with strings := sb } e' rest
                ⟨k2.nodup, k2.num, k2.last, k2.nonvoid, k2.closed, k2.seen, k2.wrote⟩ ⟨t2.ok, t2.ord⟩ hrest
              simpa using w
end Ebpf.Btf
