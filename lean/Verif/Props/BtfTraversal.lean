import Verif.Model.BtfTraversal
import Verif.Spec.BtfTraversal
/-! # C38: post-order traversal -/
namespace Ebpf.Btf
open Ebpf.BtfSpec

section generic
set_option linter.unusedSectionVars false
variable {α : Type} [DecidableEq α] (ch : α → List α)

theorem Reach.trans {x y z : α} (h : Reach ch x y) (h' : Reach ch y z) : Reach ch x z := by
  induction h with
  | refl => exact h'
  | step h1 _ ih => exact .step h1 (ih h')

theorem before_left {a b : α} {l m : List α} (h : Before a b l) : Before a b (l ++ m) := by
  obtain ⟨p, q, rfl, hp⟩ := h; exact ⟨p, q ++ m, by simp, hp⟩
theorem before_right {a b : α} {l m : List α} (h : Before a b m) : Before a b (l ++ m) := by
  obtain ⟨p, q, rfl, hp⟩ := h; exact ⟨l ++ p, q, by simp, by simp [hp]⟩
theorem before_split {a b : α} {l m : List α} (ha : a ∈ l) (hb : b ∈ m) : Before a b (l ++ m) := by
  obtain ⟨p, q, rfl⟩ := List.append_of_mem hb
  exact ⟨l ++ p, q, by simp, by simp [ha]⟩

/-- What one call of the traversal achieves. `roots` are the types it starts at. -/
structure Visited (roots vis out vis' : List α) : Prop where
  mem : ∀ x, x ∈ vis' ↔ x ∈ vis ∨ x ∈ out
  nodup : out.Nodup
  disj : ∀ x ∈ out, x ∉ vis
  start : ∀ r ∈ roots, r ∈ vis'
  closed : ∀ x ∈ out, ∀ c ∈ ch x, c ∈ vis'
  reach : ∀ x ∈ out, ∃ r ∈ roots, Reach ch r x
  order : ∀ x ∈ out, ∀ c ∈ ch x, c ∈ vis ∨ Before c x out ∨ Reach ch c x

theorem visitList_visited (v : α → List α → Option (List α × List α))
    (hv : ∀ c vis o vis', v c vis = some (o, vis') → Visited ch [c] vis o vis') :
    ∀ (cs vis o vis' : List α), visitList v cs vis = some (o, vis') → Visited ch cs vis o vis'
  | [], vis, o, vis', h => by
    simp only [visitList, Option.some.injEq, Prod.mk.injEq] at h
    obtain ⟨rfl, rfl⟩ := h
    exact ⟨by simp, by simp, by simp, by simp, by simp, by simp, by simp⟩
  | c :: cs, vis, o, vis', h => by
    unfold visitList at h
    cases h1 : v c vis with
    | none => rw [h1] at h; cases h
    | some r1 =>
      obtain ⟨o1, v1⟩ := r1
      rw [h1] at h; dsimp only at h
      cases h2 : visitList v cs v1 with
      | none => rw [h2] at h; cases h
      | some r2 =>
        obtain ⟨o2, v2⟩ := r2
        rw [h2] at h
        simp only [Option.some.injEq, Prod.mk.injEq] at h
        obtain ⟨rfl, rfl⟩ := h
        have a := hv _ _ _ _ h1
        have b := visitList_visited v hv cs v1 o2 v2 h2
        refine ⟨?_, ?_, ?_, ?_, ?_, ?_, ?_⟩
        · intro x; rw [b.mem, a.mem, List.mem_append, or_assoc]
        · rw [List.nodup_append]
          refine ⟨a.nodup, b.nodup, ?_⟩
          intro x hx y hy hxy
          subst hxy
          exact b.disj x hy ((a.mem x).2 (.inr hx))
        · intro x hx hxv
          rw [List.mem_append] at hx
          rcases hx with hx | hx
          · exact a.disj x hx hxv
          · exact b.disj x hx ((a.mem x).2 (.inl hxv))
        · intro r hr
          rw [List.mem_cons] at hr
          rcases hr with rfl | hr
          · exact (b.mem _).2 (.inl (a.start _ (by simp)))
          · exact b.start r hr
        · intro x hx k hk
          rw [List.mem_append] at hx
          rcases hx with hx | hx
          · exact (b.mem _).2 (.inl (a.closed x hx k hk))
          · exact b.closed x hx k hk
        · intro x hx
          rw [List.mem_append] at hx
          rcases hx with hx | hx
          · obtain ⟨r, hr, h⟩ := a.reach x hx
            exact ⟨r, by simp at hr; simp [hr], h⟩
          · obtain ⟨r, hr, h⟩ := b.reach x hx
            exact ⟨r, by simp [hr], h⟩
        · intro x hx k hk
          rw [List.mem_append] at hx
          rcases hx with hx | hx
          · rcases a.order x hx k hk with h | h | h
            · exact .inl h
            · exact .inr (.inl (before_left h))
            · exact .inr (.inr h)
          · rcases b.order x hx k hk with h | h | h
            · rcases (a.mem k).1 h with h | h
              · exact .inl h
              · exact .inr (.inl (before_split h hx))
            · exact .inr (.inl (before_right h))
            · exact .inr (.inr h)

theorem visit_visited : ∀ (fuel : Nat) (root : α) (vis out vis' : List α), visit ch fuel root vis = some (out, vis') →
    Visited ch [root] vis out vis'
  | 0, root, vis, out, vis', h => by simp [visit] at h
  | fuel + 1, root, vis, out, vis', h => by
    unfold visit at h
    by_cases hr : root ∈ vis
    · rw [if_pos hr] at h
      simp only [Option.some.injEq, Prod.mk.injEq] at h
      obtain ⟨rfl, rfl⟩ := h
      exact ⟨by simp, by simp, by simp, by simp [hr], by simp, by simp, by simp⟩
    · rw [if_neg hr] at h
      cases hl : visitList (visit ch fuel) (ch root) (root :: vis) with
      | none => rw [hl] at h; cases h
      | some r =>
        obtain ⟨o, v⟩ := r
        rw [hl] at h
        simp only [Option.some.injEq, Prod.mk.injEq] at h
        obtain ⟨rfl, rfl⟩ := h
        have a := visitList_visited ch (visit ch fuel) (fun c vis o vis' h => visit_visited fuel c vis o vis' h) _ _ _ _ hl
        have hro : root ∉ o := fun h => a.disj root h (by simp)
        have rr : ∀ x ∈ o, Reach ch root x := by
          intro x hx
          obtain ⟨r, hr, h⟩ := a.reach x hx
          exact .step hr h
        refine ⟨?_, ?_, ?_, ?_, ?_, ?_, ?_⟩
        · intro x; rw [a.mem]; simp; grind
        · rw [List.nodup_append]
          refine ⟨a.nodup, by simp, ?_⟩
          intro x hx y hy hxy
          simp at hy; subst hy; subst hxy; exact hro hx
        · intro x hx hxv
          simp at hx
          rcases hx with hx | rfl
          · exact a.disj x hx (by simp [hxv])
          · exact hr hxv
        · intro r hr; simp at hr; subst hr; exact (a.mem _).2 (.inl (by simp))
        · intro x hx k hk
          simp at hx
          rcases hx with hx | rfl
          · exact a.closed x hx k hk
          · exact a.start k hk
        · intro x hx
          simp at hx
          rcases hx with hx | rfl
          · exact ⟨root, by simp, rr x hx⟩
          · exact ⟨x, by simp, .refl _⟩
        · intro x hx k hk
          simp at hx
          rcases hx with hx | rfl
          · rcases a.order x hx k hk with h | h | h
            · simp at h
              rcases h with rfl | h
              · exact .inr (.inr (rr x hx))
              · exact .inl h
            · exact .inr (.inl (before_left h))
            · exact .inr (.inr h)
          · rcases (a.mem k).1 (a.start k hk) with h | h
            · simp at h
              rcases h with rfl | h
              · exact .inr (.inr (.refl _))
              · exact .inl h
            · exact .inr (.inl ⟨o, [], by simp, h⟩)

/-- Number of types of `U` not visited yet. -/
def unvisited (U vis : List α) : Nat := (U.filter fun x => x ∉ vis).length

theorem unvisited_mono (U : List α) {v v' : List α} (h : ∀ x ∈ v, x ∈ v') : unvisited U v' ≤ unvisited U v := by
  induction U with
  | nil => exact Nat.le_refl _
  | cons a U ih =>
    unfold unvisited at ih ⊢
    by_cases h1 : a ∈ v
    · have h2 := h a h1
      simpa [h1, h2] using ih
    · by_cases h2 : a ∈ v'
      · simp [h1, h2] at ih ⊢; omega
      · simp [h1, h2] at ih ⊢; omega

theorem unvisited_lt (U : List α) (v : List α) (r : α) (hr : r ∈ U) (hv : r ∉ v) : unvisited U (r :: v) < unvisited U v := by
  induction U with
  | nil => simp at hr
  | cons a U ih =>
    have mono := unvisited_mono U (v := v) (v' := r :: v) (by simp; intro x hx; exact .inr hx)
    unfold unvisited at ih mono ⊢
    by_cases har : a = r
    · subst har
      simp [hv] at ih mono ⊢; omega
    · have hr' : r ∈ U := by simpa [Ne.symm har] using hr
      have := ih hr'
      by_cases h2 : a ∈ v
      · simp [har, h2] at this ⊢; exact this
      · simp [har, h2] at this ⊢; exact this

theorem visit_total (U : List α) (hU : Closed ch U) : ∀ (fuel : Nat) (root : α) (vis : List α), root ∈ U →
    unvisited U vis < fuel → ∃ r, visit ch fuel root vis = some r
  | 0, root, vis, _, h => by omega
  | fuel + 1, root, vis, hr, h => by
    unfold visit
    by_cases hv : root ∈ vis
    · rw [if_pos hv]; exact ⟨_, rfl⟩
    · rw [if_neg hv]
      have key : ∀ (cs : List α) (v : List α), (∀ c ∈ cs, c ∈ U) → unvisited U v < fuel → ∃ r, visitList (visit ch fuel) cs v = some r := by
        intro cs
        induction cs with
        | nil => intro v _ _; exact ⟨_, rfl⟩
        | cons c cs ih =>
          intro v hc hlt
          obtain ⟨⟨o1, v1⟩, h1⟩ := visit_total U hU fuel c v (hc c (by simp)) hlt
          have hm := (visit_visited ch _ _ _ _ _ h1).mem
          have hle := unvisited_mono U (v := v) (v' := v1) (fun x hx => (hm x).2 (.inl hx))
          obtain ⟨⟨o2, v2⟩, h2⟩ := ih v1 (fun x hx => hc x (by simp [hx])) (by omega)
          exact ⟨_, by simp [visitList, h1, h2]; rfl⟩
      obtain ⟨⟨o, v⟩, hl⟩ := key (ch root) (root :: vis) (fun c hc => hU root hr c hc)
        (by have := unvisited_lt U vis root hr hv; omega)
      exact ⟨_, by rw [hl]⟩

theorem visitList_fuel (v w : α → List α → Option (List α × List α)) (h : ∀ c vis r, v c vis = some r → w c vis = some r) :
    ∀ (cs vis : List α) (r), visitList v cs vis = some r → visitList w cs vis = some r
  | [], vis, r, hr => hr
  | c :: cs, vis, r, hr => by
    unfold visitList at hr ⊢
    cases h1 : v c vis with
    | none => rw [h1] at hr; cases hr
    | some p =>
      obtain ⟨o, v1⟩ := p
      rw [h1] at hr; rw [h _ _ _ h1]; dsimp only at hr ⊢
      cases h2 : visitList v cs v1 with
      | none => rw [h2] at hr; cases hr
      | some q => rw [h2] at hr; rw [visitList_fuel v w h cs v1 q h2]; exact hr

/-- More fuel does not change the result. -/
theorem visit_fuel : ∀ (f f' : Nat) (root : α) (vis : List α) (r), f ≤ f' → visit ch f root vis = some r → visit ch f' root vis = some r
  | 0, f', root, vis, r, _, h => by simp [visit] at h
  | f + 1, 0, root, vis, r, hle, h => by omega
  | f + 1, f' + 1, root, vis, r, hle, h => by
    unfold visit at h ⊢
    by_cases hv : root ∈ vis
    · rw [if_pos hv] at h ⊢; exact h
    · rw [if_neg hv] at h ⊢
      cases hl : visitList (visit ch f) (ch root) (root :: vis) with
      | none => rw [hl] at h; cases h
      | some p =>
        rw [hl] at h
        rw [visitList_fuel _ _ (fun c vis r hc => visit_fuel f f' c vis r (by omega) hc) _ _ _ hl]
        exact h

theorem reach_closed (U : List α) (hU : Closed ch U) {x y : α} (h : Reach ch x y) (hx : x ∈ U) : y ∈ U := by
  induction h with
  | refl => exact hx
  | step h1 _ ih => exact ih (hU _ hx _ h1)

/-- C38: traversal of any finite graph, cyclic or not, terminates; it yields each type reachable from the root and not visited by an earlier traversal exactly
once and nothing else, and a child before its parents except where the child leads back to the parent. `done` are the types yielded by earlier
traversals sharing the same `visited` set. -/
theorem postorder_correct (U : List α) (hU : Closed ch U) (done : List α) (hd : Closed ch done) (root : α) (hr : root ∈ U)
    (fuel : Nat) (hf : U.length < fuel) :
    ∃ out vis', visit ch fuel root done = some (out, vis') ∧
      out.Nodup ∧ (∀ x, x ∈ out ↔ Reach ch root x ∧ x ∉ done) ∧
      (∀ x ∈ out, ∀ c ∈ ch x, c ∈ done ∨ Before c x out ∨ Reach ch c x) ∧
      (∀ x, x ∈ vis' ↔ x ∈ done ∨ x ∈ out) ∧ Closed ch vis' := by
  have hle : unvisited U done ≤ U.length := List.length_filter_le ..
  obtain ⟨⟨out, vis'⟩, h⟩ := visit_total ch U hU fuel root done hr (by omega)
  have a := visit_visited ch _ _ _ _ _ h
  have hc : Closed ch vis' := by
    intro x hx y hy
    rcases (a.mem x).1 hx with hx | hx
    · exact (a.mem y).2 (.inl (hd x hx y hy))
    · exact a.closed x hx y hy
  refine ⟨out, vis', h, a.nodup, ?_, a.order, a.mem, hc⟩
  intro x
  constructor
  · intro hx
    obtain ⟨r, hr, h'⟩ := a.reach x hx
    simp at hr; subst hr
    exact ⟨h', a.disj x hx⟩
  · rintro ⟨h1, h2⟩
    have := reach_closed ch vis' hc h1 (a.start root (by simp))
    rcases (a.mem x).1 this with h | h
    · exact absurd h h2
    · exact h

/-- C38: the order is a topological order whenever the graph has no cycles. -/
theorem postorder_acyclic (done out : List α) (x : α) (hx : x ∈ out)
    (hord : ∀ x ∈ out, ∀ c ∈ ch x, c ∈ done ∨ Before c x out ∨ Reach ch c x)
    (hac : ∀ c ∈ ch x, ¬ Reach ch c x) : ∀ c ∈ ch x, c ∈ done ∨ Before c x out := by
  intro c hc
  rcases hord x hx c hc with h | h | h
  · exact .inl h
  · exact .inr h
  · exact absurd h (hac c hc)
end generic

/-! ## `children` yields every type a type refers to -/

variable {R : Type}

/-- Specification: the types mentioned by the fields of a type. -/
def refs : Node R → List R
  | .void => []
  | .int .. => []
  | .enum .. => []
  | .fwd .. => []
  | .float .. => []
  | .cycle _ => []
  | .declTag .. => []
  | .ptr t => [t]
  | .array i t _ => [i, t]
  | .struct _ _ ms _ => ms.map (·.type)
  | .union _ _ ms _ => ms.map (·.type)
  | .typedef _ t _ => [t]
  | .volatile t => [t]
  | .const t => [t]
  | .restrict t => [t]
  | .func _ t _ _ _ => [t]
  | .funcProto t ps => t :: ps.map (·.type)
  | .var _ t _ _ => [t]
  | .datasec _ _ vs => vs.map (·.type)
  | .typeTag t _ => [t]

theorem tagRefs_obj (r x : R) (i : Int) (ts : List Bytes) : TRef.obj x ∉ tagRefs r i ts := by
  simp [tagRefs, List.mem_mapIdx]

theorem memberRefs_obj (r x : R) (ms : List (Member R)) : TRef.obj x ∈ memberRefs r ms ↔ x ∈ ms.map (·.type) := by
  simp only [memberRefs, List.mem_flatten, List.mem_mapIdx, List.mem_map]
  constructor
  · rintro ⟨l, ⟨i, hi, rfl⟩, hx⟩
    simp [tagRefs_obj] at hx
    exact ⟨ms[i], List.getElem_mem _, hx.symm⟩
  · rintro ⟨m, hm, rfl⟩
    obtain ⟨i, hi, rfl⟩ := List.mem_iff_getElem.1 hm
    exact ⟨_, ⟨i, hi, rfl⟩, by simp⟩

/-- C38: the graph that is walked is the one the user sees: `children` yields the types referred to by the fields of a type
(apart from `declTag`s). -/
theorem children_refs (g : Graph R) (r x : R) : TRef.obj x ∈ children g (.obj r) ↔ x ∈ refs (g r) := by
  simp only [children, childrenObj]
  cases hg : g r <;> simp [refs, tagRefs_obj, memberRefs_obj]
  case func n t l ts pts =>
    simp only [paramTagRefs, List.mem_flatten, List.mem_mapIdx]
    rintro ⟨l, ⟨i, hi, rfl⟩, hx⟩
    exact (tagRefs_obj _ _ _ _ hx).elim

/-- C38: the tags yielded for a type are exactly those in its `Tags` fields. -/
theorem children_tags (g : Graph R) (r p : R) (v : Bytes) (idx : Int) (k : Nat) :
    TRef.tag p v idx k ∈ children g (.obj r) ↔ p = r ∧ (
      (idx = -1 ∧ ∃ ts, ts[k]? = some v ∧ ((∃ n s ms, g r = .struct n s ms ts) ∨ (∃ n s ms, g r = .union n s ms ts) ∨
        (∃ n t, g r = .typedef n t ts) ∨ (∃ n t l, g r = .var n t l ts) ∨ (∃ n t l pt, g r = .func n t l ts pt))) ∨
      (∃ i : Nat, idx = i ∧ ∃ ms : List (Member R), ((∃ n s ts, g r = .struct n s ms ts) ∨ (∃ n s ts, g r = .union n s ms ts)) ∧
        ∃ m, ms[i]? = some m ∧ m.tags[k]? = some v) ∨
      (∃ i : Nat, idx = i ∧ ∃ n t l ts pts rt ps tags, g r = .func n t l ts pts ∧ g t = .funcProto rt ps ∧ i < ps.length ∧
        pts[i]? = some tags ∧ tags[k]? = some v)) := by
  have htag : ∀ (r : R) (i : Int) (ts : List Bytes), TRef.tag p v idx k ∈ tagRefs r i ts ↔ p = r ∧ idx = i ∧ ts[k]? = some v := by
    intro r i ts
    simp only [tagRefs, List.mem_mapIdx, TRef.tag.injEq]
    constructor
    · rintro ⟨j, hj, rfl, rfl, rfl, rfl⟩; simp [hj]
    · rintro ⟨rfl, rfl, h⟩
      obtain ⟨hk, rfl⟩ := List.getElem?_eq_some_iff.1 h
      exact ⟨k, hk, rfl, rfl, rfl, rfl⟩
  have hmem : ∀ (r : R) (ms : List (Member R)), TRef.tag p v idx k ∈ memberRefs r ms ↔
      p = r ∧ ∃ i : Nat, idx = i ∧ ∃ m, ms[i]? = some m ∧ m.tags[k]? = some v := by
    intro r ms
    simp only [memberRefs, List.mem_flatten, List.mem_mapIdx]
    constructor
    · rintro ⟨l, ⟨i, hi, rfl⟩, hx⟩
      rw [List.mem_cons] at hx
      rcases hx with hx | hx
      · cases hx
      · obtain ⟨h1, h2, h3⟩ := (htag _ _ _).1 hx
        exact ⟨h1, i, h2, ms[i], by simp [hi], h3⟩
    · rintro ⟨h1, i, h2, m, hm, h3⟩
      obtain ⟨hi, rfl⟩ := List.getElem?_eq_some_iff.1 hm
      exact ⟨_, ⟨i, hi, rfl⟩, by rw [List.mem_cons]; right; exact (htag _ _ _).2 ⟨h1, h2, h3⟩⟩
  have hpar : ∀ (r : R) (n : Nat) (pts : List (List Bytes)), TRef.tag p v idx k ∈ paramTagRefs r n pts ↔
      p = r ∧ ∃ i : Nat, idx = i ∧ i < n ∧ ∃ tags, pts[i]? = some tags ∧ tags[k]? = some v := by
    intro r n pts
    simp only [paramTagRefs, List.mem_flatten, List.mem_mapIdx]
    constructor
    · rintro ⟨l, ⟨i, hi, rfl⟩, hx⟩
      obtain ⟨h1, h2, h3⟩ := (htag _ _ _).1 hx
      rw [List.length_take] at hi
      refine ⟨h1, i, h2, by omega, _, ?_, h3⟩
      rw [List.getElem_take]; simp
    · rintro ⟨h1, i, h2, hi, tags, ht, h3⟩
      obtain ⟨hl, rfl⟩ := List.getElem?_eq_some_iff.1 ht
      refine ⟨_, ⟨i, by rw [List.length_take]; omega, rfl⟩, ?_⟩
      rw [List.getElem_take]
      exact (htag _ _ _).2 ⟨h1, h2, h3⟩
  simp only [children, childrenObj]
  cases hg : g r with
  | void | int | enum | fwd | float | declTag | cycle | ptr | array | volatile | const | restrict | typeTag => simp
  | funcProto => simp
  | datasec => simp
  | struct n s ms ts => simp [htag, hmem]; grind
  | union n s ms ts => simp [htag, hmem]; grind
  | typedef n t ts => simp [htag]
  | var n t l ts => simp [htag]
  | func n t l ts pts =>
    simp only [List.mem_cons, reduceCtorEq, List.mem_append, htag, hpar, false_or]
    have hpl : ∀ i, i < protoLen (g t) ↔ ∃ rt ps, g t = .funcProto rt ps ∧ i < ps.length := by
      intro i; cases g t <;> simp [protoLen]
      exact ⟨fun h => ⟨_, _, ⟨rfl, rfl⟩, h⟩, by rintro ⟨_, _, ⟨rfl, rfl⟩, h⟩; exact h⟩
    simp only [hpl]
    constructor
    · rintro (⟨h1, i, h2, ⟨rt, ps, h3, h4⟩, tags, h5, h6⟩ | ⟨h1, h2, h3⟩)
      · exact ⟨h1, .inr (.inr ⟨i, h2, n, t, l, ts, pts, rt, ps, tags, rfl, h3, h4, h5, h6⟩)⟩
      · exact ⟨h1, .inl ⟨h2, ts, h3, by simp⟩⟩
    · rintro ⟨h1, ⟨h2, ts', h3, h4⟩ | ⟨i, h2, ms, h3, _⟩ | ⟨i, h2, n', t', l', ts', pts', rt, ps, tags, h3, h4, h5, h6, h7⟩⟩
      · simp at h4; exact .inr ⟨h1, h2, by rw [h4]; exact h3⟩
      · simp at h3
      · injection h3 with a b c d e; subst a; subst b; subst c; subst d; subst e
        exact .inl ⟨h1, i, h2, ⟨rt, ps, h4, h5⟩, tags, h6, h7⟩

/-! ## Non-vacuity: a self-referential struct with a tag -/

/-- `struct list { struct list *next; int v; }` with a tag on the second member. -/
def listGraph : Graph Nat
  | 0 => .struct [0x6c] 16 [⟨[0x6e], 1, 0, 0, []⟩, ⟨[0x76], 2, 64, 0, [[0x74]]⟩] []
  | 1 => .ptr 0
  | 2 => .int [0x69] 4 1
  | _ => .void

example : (visit (children listGraph) 5 (.obj 0) []).map (·.1) = some [.obj 1, .obj 2, .tag 0 [0x74] 1 0, .obj 0] := by decide
example : (visit (children listGraph) 5 (.obj 1) []).map (·.1) = some [.obj 2, .tag 0 [0x74] 1 0, .obj 0, .obj 1] := by decide
example : Closed (children listGraph) [.obj 0, .obj 1, .obj 2, .tag 0 [0x74] 1 0] := by unfold Closed; decide

end Ebpf.Btf
