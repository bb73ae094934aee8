import Verif.Props.BtfInflate
import Verif.Props.BtfTags
import Verif.Spec.BtfRoundTrip
/-! # C26: tags are attached to the types they were written for -/
namespace Ebpf.Btf
open BtfSpec
set_option linter.unusedSectionVars false

section apply
variable {T : Type}

/-- Attach a list of tags. -/
def applyAll (p : Option Nat) (n : Node T) (l : List (Bytes × Int)) : Option (Node T) := l.foldlM (fun n q => applyTag p n q.1 q.2) n

theorem applyAll_nil (p : Option Nat) (n : Node T) : applyAll p n [] = some n := rfl
theorem applyAll_cons (p : Option Nat) (n : Node T) (q : Bytes × Int) (l) : applyAll p n (q :: l) = (applyTag p n q.1 q.2).bind fun n => applyAll p n l := rfl
theorem applyAll_append (p : Option Nat) (n : Node T) (l m : List (Bytes × Int)) : applyAll p n (l ++ m) = (applyAll p n l).bind fun n => applyAll p n m := by
  induction l generalizing n with
  | nil => rfl
  | cons q l ih =>
    rw [List.cons_append, applyAll_cons, applyAll_cons]
    cases applyTag p n q.1 q.2 with
    | none => rfl
    | some n' => exact ih n'

/-- Tags of components, numbered from `c`. -/
def compVals : Nat → List (List Bytes) → List (Bytes × Int)
  | _, [] => []
  | c, ts :: rest => (ts.map fun v => (v, (c : Int))) ++ compVals (c + 1) rest

theorem own_struct (p : Option Nat) (nm : Bytes) (s : BitVec 32) (ms : List (Member T)) : ∀ (ts ts0 : List Bytes),
    applyAll p (.struct nm s ms ts0) (ts.map fun v => (v, -1)) = some (.struct nm s ms (ts0 ++ ts))
  | [], ts0 => by simp [applyAll_nil]
  | t :: ts, ts0 => by
    rw [List.map_cons, applyAll_cons]
    simp only [applyTag]
    rw [if_neg (by decide), if_pos trivial, Option.bind_some, own_struct p nm s ms ts (ts0 ++ [t])]
    simp
theorem own_union (p : Option Nat) (nm : Bytes) (s : BitVec 32) (ms : List (Member T)) : ∀ (ts ts0 : List Bytes),
    applyAll p (.union nm s ms ts0) (ts.map fun v => (v, -1)) = some (.union nm s ms (ts0 ++ ts))
  | [], ts0 => by simp [applyAll_nil]
  | t :: ts, ts0 => by
    rw [List.map_cons, applyAll_cons]
    simp only [applyTag]
    rw [if_neg (by decide), if_pos trivial, Option.bind_some, own_union p nm s ms ts (ts0 ++ [t])]
    simp
theorem own_typedef (p : Option Nat) (nm : Bytes) (x : T) : ∀ (ts ts0 : List Bytes),
    applyAll p (.typedef nm x ts0) (ts.map fun v => (v, -1)) = some (.typedef nm x (ts0 ++ ts))
  | [], ts0 => by simp [applyAll_nil]
  | t :: ts, ts0 => by
    rw [List.map_cons, applyAll_cons]
    simp only [applyTag]
    rw [if_neg (by decide), Option.bind_some, own_typedef p nm x ts (ts0 ++ [t])]
    simp
theorem own_var (p : Option Nat) (nm : Bytes) (x : T) (l : Int) : ∀ (ts ts0 : List Bytes),
    applyAll p (.var nm x l ts0) (ts.map fun v => (v, -1)) = some (.var nm x l (ts0 ++ ts))
  | [], ts0 => by simp [applyAll_nil]
  | t :: ts, ts0 => by
    rw [List.map_cons, applyAll_cons]
    simp only [applyTag]
    rw [if_neg (by decide), Option.bind_some, own_var p nm x l ts (ts0 ++ [t])]
    simp
theorem own_func (k : Nat) (nm : Bytes) (x : T) (l : Int) (pts : List (List Bytes)) (hk : pts.length = k) : ∀ (ts ts0 : List Bytes),
    applyAll (some k) (.func nm x l ts0 pts) (ts.map fun v => (v, -1)) = some (.func nm x l (ts0 ++ ts) pts)
  | [], ts0 => by simp [applyAll_nil]
  | t :: ts, ts0 => by
    rw [List.map_cons, applyAll_cons]
    simp only [applyTag]
    have : (if pts.length = 0 then List.replicate k [] else pts) = pts := by
      split
      · rename_i h
        have : pts = [] := List.eq_nil_of_length_eq_zero h
        subst this; simp at hk; subst hk; rfl
      · rfl
    rw [this, if_neg (by decide), if_pos trivial, Option.bind_some, own_func k nm x l pts hk ts (ts0 ++ [t])]
    simp

theorem modify_mid {α : Type} (f : α → α) (pre : List α) (x : α) (post : List α) : (pre ++ x :: post).modify pre.length f = pre ++ f x :: post := by
  induction pre with
  | nil => rfl
  | cons a pre ih => simp [ih]

theorem one_struct (p : Option Nat) (nm : Bytes) (s : BitVec 32) (ts0 : List Bytes) (pre post : List (Member T)) (m : Member T) : ∀ (ts t0 : List Bytes),
    applyAll p (.struct nm s (pre ++ { m with tags := t0 } :: post) ts0) (ts.map fun v => (v, (pre.length : Int))) =
      some (.struct nm s (pre ++ { m with tags := t0 ++ ts } :: post) ts0)
  | [], t0 => by simp [applyAll_nil]
  | t :: ts, t0 => by
    rw [List.map_cons, applyAll_cons]
    simp only [applyTag]
    rw [if_pos (by omega), if_neg (by simp), Int.toNat_natCast, modify_mid, Option.bind_some]
    have := one_struct p nm s ts0 pre post m ts (t0 ++ [t])
    simp only at this ⊢
    rw [this]; simp
theorem one_union (p : Option Nat) (nm : Bytes) (s : BitVec 32) (ts0 : List Bytes) (pre post : List (Member T)) (m : Member T) : ∀ (ts t0 : List Bytes),
    applyAll p (.union nm s (pre ++ { m with tags := t0 } :: post) ts0) (ts.map fun v => (v, (pre.length : Int))) =
      some (.union nm s (pre ++ { m with tags := t0 ++ ts } :: post) ts0)
  | [], t0 => by simp [applyAll_nil]
  | t :: ts, t0 => by
    rw [List.map_cons, applyAll_cons]
    simp only [applyTag]
    rw [if_pos (by omega), if_neg (by simp), Int.toNat_natCast, modify_mid, Option.bind_some]
    have := one_union p nm s ts0 pre post m ts (t0 ++ [t])
    simp only at this ⊢
    rw [this]; simp
theorem one_func (k : Nat) (nm : Bytes) (x : T) (l : Int) (ts0 : List Bytes) (pre post : List (List Bytes)) (hk : pre.length + post.length + 1 = k) : ∀ (ts t0 : List Bytes),
    applyAll (some k) (.func nm x l ts0 (pre ++ t0 :: post)) (ts.map fun v => (v, (pre.length : Int))) = some (.func nm x l ts0 (pre ++ (t0 ++ ts) :: post))
  | [], t0 => by simp [applyAll_nil]
  | t :: ts, t0 => by
    rw [List.map_cons, applyAll_cons]
    simp only [applyTag]
    have hne : (if (pre ++ t0 :: post).length = 0 then List.replicate k [] else pre ++ t0 :: post) = pre ++ t0 :: post := if_neg (by simp)
    rw [hne, if_pos (by omega), if_neg (by simp; omega), Int.toNat_natCast, modify_mid, Option.bind_some,
      one_func k nm x l ts0 pre post hk ts (t0 ++ [t])]
    simp

theorem comp_struct (p : Option Nat) (nm : Bytes) (s : BitVec 32) (ts0 : List Bytes) : ∀ (rest pre : List (Member T)),
    applyAll p (.struct nm s (pre ++ rest.map untag) ts0) (compVals pre.length (rest.map (·.tags))) = some (.struct nm s (pre ++ rest) ts0)
  | [], pre => by simp [compVals, applyAll_nil]
  | m :: rest, pre => by
    rw [List.map_cons, List.map_cons, compVals, applyAll_append]
    have h1 := one_struct p nm s ts0 pre (rest.map untag) m m.tags []
    have h2 := comp_struct p nm s ts0 rest (pre ++ [m])
    simp only [List.nil_append, List.append_assoc, List.cons_append, List.length_append, List.length_cons, List.length_nil] at h1 h2
    rw [show untag m = { m with tags := [] } from rfl, h1]
    exact h2
theorem comp_union (p : Option Nat) (nm : Bytes) (s : BitVec 32) (ts0 : List Bytes) : ∀ (rest pre : List (Member T)),
    applyAll p (.union nm s (pre ++ rest.map untag) ts0) (compVals pre.length (rest.map (·.tags))) = some (.union nm s (pre ++ rest) ts0)
  | [], pre => by simp [compVals, applyAll_nil]
  | m :: rest, pre => by
    rw [List.map_cons, List.map_cons, compVals, applyAll_append]
    have h1 := one_union p nm s ts0 pre (rest.map untag) m m.tags []
    have h2 := comp_union p nm s ts0 rest (pre ++ [m])
    simp only [List.nil_append, List.append_assoc, List.cons_append, List.length_append, List.length_cons, List.length_nil] at h1 h2
    rw [show untag m = { m with tags := [] } from rfl, h1]
    exact h2
theorem comp_func (k : Nat) (nm : Bytes) (x : T) (l : Int) (ts0 : List Bytes) : ∀ (rest pre : List (List Bytes)), pre.length + rest.length ≤ k →
    applyAll (some k) (.func nm x l ts0 (pre ++ List.replicate (k - pre.length) [])) (compVals pre.length rest) =
      some (.func nm x l ts0 (pre ++ rest ++ List.replicate (k - pre.length - rest.length) []))
  | [], pre, _ => by simp [compVals, applyAll_nil]
  | ts :: rest, pre, hk => by
    simp only [List.length_cons] at hk
    rw [compVals, applyAll_append]
    have hrep : List.replicate (k - pre.length) ([] : List Bytes) = [] :: List.replicate (k - (pre.length + 1)) [] := by
      rw [show k - pre.length = (k - (pre.length + 1)) + 1 by omega]; rfl
    have h1 := one_func k nm x l ts0 pre (List.replicate (k - (pre.length + 1)) []) (by simp; omega) ts []
    have h2 := comp_func k nm x l ts0 rest (pre ++ [ts]) (by simp; omega)
    simp only [List.nil_append, List.append_assoc, List.cons_append, List.length_append, List.length_cons, List.length_nil] at h1 h2
    rw [hrep, h1, Option.bind_some, h2]
    congr 2
    simp only [List.append_assoc, List.cons_append, List.length_cons]
    congr 4; omega

theorem start_func (k : Nat) (nm : Bytes) (x : T) (l : Int) (ts0 : List Bytes) (q : Bytes × Int) (vs : List (Bytes × Int)) :
    applyAll (some k) (.func nm x l ts0 []) (q :: vs) = applyAll (some k) (.func nm x l ts0 (List.replicate k [])) (q :: vs) := by
  rw [applyAll_cons, applyAll_cons]
  simp only [applyTag]
  have : (if (List.replicate k ([] : List Bytes)).length = 0 then List.replicate k [] else List.replicate k ([] : List Bytes)) = List.replicate k [] := by split <;> rfl
  rw [this]; rfl

theorem compVals_nil (l : List (List Bytes)) : ∀ c, compVals c l = [] ↔ ∀ p ∈ l, p = [] := by
  induction l with
  | nil => intro c; simp [compVals]
  | cons t l ih => intro c; simp [compVals, ih]

/-- All tags of a function. -/
theorem all_func (k : Nat) (nm : Bytes) (x : T) (l : Int) (ts : List Bytes) (pts : List (List Bytes)) :
    applyAll (some k) (.func nm x l [] []) (compVals 0 (pts.take k) ++ ts.map fun v => (v, -1)) = some (.func nm x l ts (paramTagsSeen k ts pts)) := by
  unfold paramTagsSeen
  by_cases ht : Tagged k ts pts
  · rw [if_pos ht]
    have hne : compVals 0 (pts.take k) ++ (ts.map fun v => (v, (-1 : Int))) ≠ [] := by
      intro h
      rw [List.append_eq_nil_iff, compVals_nil, List.map_eq_nil_iff] at h
      rcases ht with h' | ⟨p, hp, hpe⟩
      · exact h' h.2
      · exact hpe (h.1 p hp)
    obtain ⟨q, vs, hq⟩ := List.exists_cons_of_ne_nil hne
    rw [hq, start_func, ← hq, applyAll_append]
    have h1 := comp_func k nm x l [] (pts.take k) [] (by simp; omega)
    simp only [List.nil_append, List.length_nil, Nat.sub_zero] at h1
    rw [h1, Option.bind_some, own_func k nm x l _ (by simp; omega)]
    simp only [List.nil_append, List.length_take]
    congr 4; omega
  · rw [if_neg ht]
    unfold Tagged at ht
    simp only [ne_eq, not_or, Decidable.not_not, not_exists, not_and] at ht
    have : compVals 0 (pts.take k) = [] := (compVals_nil _ 0).2 ht.2
    rw [this, ht.1]; rfl
end apply

variable {R : Type} [DecidableEq R]

/-- Value and component of a tag. -/
def tagVal : TRef R → Bytes × Int
  | .tag _ v i _ => (v, i)
  | _ => ([], 0)

theorem tagVal_from (p : R) (idx : Int) : ∀ (ts : List Bytes) (c : Nat), (tagRefsFrom p idx c ts).map tagVal = ts.map fun v => (v, idx)
  | [], c => rfl
  | t :: ts, c => by simp [tagRefsFrom, tagVal, tagVal_from p idx ts]
theorem tagVal_comp (p : R) : ∀ (l : List (List Bytes)) (c : Nat), (compTags p c l).map tagVal = compVals c l
  | [], c => rfl
  | t :: ts, c => by simp [compTags, compVals, tagVal_from, tagVal_comp p ts]

theorem protoAt_keep (nodes : List (Node ID)) (p : Option Nat) (n n' : Node ID) (v : Bytes) (i : Int) (h : applyTag p n v i = some n') : protoAt nodes n' = protoAt nodes n := by
  cases n with
  | var nm t l ts => simp only [applyTag] at h; split at h <;> cases h; rfl
  | typedef nm t ts => simp only [applyTag] at h; split at h <;> cases h; rfl
  | struct nm s ms ts =>
    simp only [applyTag] at h
    split at h
    · split at h <;> cases h; rfl
    · split at h <;> cases h; rfl
  | union nm s ms ts =>
    simp only [applyTag] at h
    split at h
    · split at h <;> cases h; rfl
    · split at h <;> cases h; rfl
  | func nm t l ts pts =>
    cases p with
    | none => simp only [applyTag] at h; cases h
    | some k =>
      simp only [applyTag] at h
      generalize (if pts.length = 0 then List.replicate k [] else pts) = q at h
      split at h
      · split at h <;> cases h; rfl
      · split at h <;> cases h; rfl
  | _ => simp only [applyTag] at h; cases h

theorem fold_tagStep (nodes : List (Node ID)) (f : TRef R → ID) : ∀ (tags : List (TRef R)) (n : Node ID),
    (∀ t ∈ tags, ∃ x, nodeAt nodes (f t) = some (.declTag x (tagVal t).1 (tagVal t).2)) →
    (tags.map f).foldlM (tagStep nodes) n = applyAll (protoAt nodes n) n (tags.map tagVal)
  | [], n, _ => rfl
  | t :: tags, n, h => by
    obtain ⟨x, hx⟩ := h t (by simp)
    rw [List.map_cons, List.foldlM_cons, List.map_cons, applyAll_cons]
    simp only [tagStep, hx]
    cases ha : applyTag (protoAt nodes n) n (tagVal t).1 (tagVal t).2 with
    | none => rfl
    | some n' =>
      have := fold_tagStep nodes f tags n' (fun t ht => h t (by simp [ht]))
      rw [protoAt_keep nodes _ _ _ _ _ ha] at this
      exact this

/-- What is known of the types written, `order`, and of their IDs. -/
structure Layout (o : Opts) (g : Graph R) (order : List (TRef R)) (idf : TRef R → ID) : Prop where
  size : order.length < 2 ^ 32
  nodup : order.Nodup
  pos : ∀ (i : Nat) t, order[i]? = some t → idf t = BitVec.ofNat 32 (i + 1)
  zero : ∀ t, extGraph g t = .void → idf t = 0
  nonvoid : ∀ t ∈ order, extGraph g t ≠ .void
  refs : ∀ t ∈ order, ∀ u ∈ fixOrder (lower o (placeholderOf t) (extGraph g t)), u ∈ order ∨ extGraph g u = .void
  tags : ∀ r, .obj r ∈ order → order.filter (isTagOf r) = tagsOfObj g r
  writable : ∀ r, .obj r ∈ order → Writable g r
  nocycle : ∀ r t, .obj r ∈ order → g r ≠ .cycle t
  parents : ∀ p v i k, .tag p v i k ∈ order → .obj p ∈ order

/-- The records written. -/
def written (o : Opts) (g : Graph R) (order : List (TRef R)) (idf : TRef R → ID) : List (Node ID) :=
  order.map fun t => (lower o (placeholderOf t) (extGraph g t)).map idf

namespace Layout
variable {o : Opts} {g : Graph R} {order : List (TRef R)} {idf : TRef R → ID} (L : Layout o g order idf)
include L

theorem id_bound {t : TRef R} (h : t ∈ order) : idf t ≠ 0 ∧ (idf t).toNat ≤ order.length ∧ order[(idf t).toNat - 1]? = some t := by
  obtain ⟨i, hi, rfl⟩ := List.getElem_of_mem h
  have := L.pos i _ (List.getElem?_eq_getElem hi)
  have hs := L.size
  have ht : (idf order[i]).toNat = i + 1 := by rw [this, BitVec.toNat_ofNat, Nat.mod_eq_of_lt (by omega)]
  refine ⟨?_, by omega, by rw [ht]; simpa using List.getElem?_eq_getElem hi⟩
  intro e; rw [e] at ht; simp at ht

theorem id_inj {t u : TRef R} (ht : t ∈ order) (hu : u ∈ order) (h : idf t = idf u) : t = u := by
  have h1 := (L.id_bound ht).2.2
  have h2 := (L.id_bound hu).2.2
  rw [h, h2] at h1
  exact (Option.some.inj h1).symm

theorem id_surj (id : ID) (h0 : id ≠ 0) (h : id.toNat ≤ order.length) : ∃ t ∈ order, idf t = id := by
  have hp : 0 < id.toNat := by
    rcases Nat.eq_zero_or_pos id.toNat with h | h
    · exact absurd (BitVec.eq_of_toNat_eq (by simpa using h)) h0
    · exact h
  refine ⟨order[id.toNat - 1], List.getElem_mem (by omega), ?_⟩
  rw [L.pos (id.toNat - 1) _ (List.getElem?_eq_getElem (by omega)), Nat.sub_add_cancel hp]
  simp

theorem node {t : TRef R} (h : t ∈ order) : nodeAt (written o g order idf) (idf t) = some ((lower o (placeholderOf t) (extGraph g t)).map idf) := by
  obtain ⟨h0, _, hg⟩ := L.id_bound h
  unfold nodeAt written
  rw [if_neg h0, List.getElem?_map, hg]; rfl

theorem node_inv (id : ID) (n : Node ID) (h : nodeAt (written o g order idf) id = some n) :
    ∃ t ∈ order, idf t = id ∧ n = (lower o (placeholderOf t) (extGraph g t)).map idf := by
  obtain ⟨h0, hb⟩ := nodeAt_bound id n h
  simp only [written, List.length_map] at hb
  obtain ⟨t, ht, rfl⟩ := L.id_surj id h0 hb
  rw [L.node ht] at h
  exact ⟨t, ht, rfl, (Option.some.inj h).symm⟩

/-- Which records are tags. -/
theorem tag_record {t : TRef R} (ht : t ∈ order) (x : ID) (v : Bytes) (i : Int) :
    (lower o (placeholderOf t) (extGraph g t)).map idf = .declTag x v i ↔ o.replaceDeclTags = false ∧ ∃ p k, t = .tag p v i k ∧ x = idf (.obj p) := by
  cases t with
  | obj r =>
    simp only [reduceCtorEq, false_and, exists_false, and_false, iff_false]
    have hp := (L.writable r ht).exported
    intro h
    simp only [extGraph] at h
    cases hg : g r with
    | declTag => exact hp _ _ _ hg
    | enum nm sz sg vs =>
      rw [hg] at h
      simp only [Node.map, lower] at h
      by_cases h1 : o.replaceEnum64 = true
      · rw [if_pos h1] at h
        by_cases h2 : sz = 8
        · rw [if_pos h2] at h; cases h
        · rw [if_neg h2] at h; cases h
      · rw [if_neg h1] at h; cases h
    | typeTag =>
      rw [hg] at h
      simp only [Node.map, lower] at h
      by_cases h1 : o.replaceTypeTags = true
      · rw [if_pos h1] at h; cases h
      · rw [if_neg h1] at h; cases h
    | _ => rw [hg] at h; simp only [Node.map, lower, reduceCtorEq] at h
  | tag p w j k =>
    simp only [extGraph, lower]
    cases ho : o.replaceDeclTags with
    | true => simp [Node.map]
    | false =>
      simp only [Bool.false_eq_true, if_false, Node.map, Node.declTag.injEq, TRef.tag.injEq, true_and]
      constructor
      · rintro ⟨h1, h2, h3⟩; exact ⟨p, k, ⟨rfl, h2, h3, rfl⟩, h1.symm⟩
      · rintro ⟨p', k', ⟨rfl, h2, h3, _⟩, h1⟩; exact ⟨h1.symm, h2, h3⟩
  | ph r =>
    simp only [extGraph, reduceCtorEq, false_and, exists_false, and_false, iff_false]
    cases g r <;> simp [lower, Node.map]

theorem tagIDs_eq {t : TRef R} (ht : t ∈ order) :
    tagIDsFrom 1 (written o g order idf) (idf t) = if o.replaceDeclTags then [] else
      match t with
      | .obj r => (tagsOfObj g r).map idf
      | _ => [] := by
  have key : ∀ (M pre : List (TRef R)), order = pre ++ M →
      tagIDsFrom (BitVec.ofNat 32 (pre.length + 1)) (M.map fun t => (lower o (placeholderOf t) (extGraph g t)).map idf) (idf t) =
        if o.replaceDeclTags then [] else (M.filter fun u => match t with | .obj r => isTagOf r u | _ => false).map idf := by
    intro M
    induction M with
    | nil => intro pre _; simp [tagIDsFrom]
    | cons u M ih =>
      intro pre hpre
      have hu : u ∈ order := by rw [hpre]; simp
      have hid : idf u = BitVec.ofNat 32 (pre.length + 1) := L.pos pre.length u (by rw [hpre]; simp)
      have ih' := ih (pre ++ [u]) (by rw [hpre]; simp)
      rw [List.length_append, List.length_cons, List.length_nil, Nat.zero_add, BitVec.ofNat_add] at ih'
      replace ih' : tagIDsFrom (BitVec.ofNat 32 (pre.length + 1) + 1) _ _ = _ := ih'
      rw [List.map_cons, List.filter_cons]
      have hrec := L.tag_record hu
      generalize hn : (lower o (placeholderOf u) (extGraph g u)).map idf = n at hrec ⊢
      by_cases htag : o.replaceDeclTags = false ∧ ∃ p v i k, u = .tag p v i k
      · obtain ⟨ho, p, v, i, k, rfl⟩ := htag
        have hn' : n = .declTag (idf (.obj p)) v i := (hrec _ _ _).2 ⟨ho, p, k, rfl, rfl⟩
        have hp := L.parents p v i k hu
        rw [hn']
        simp only [tagIDsFrom, ih', ho, Bool.false_eq_true, if_false]
        by_cases heq : idf (.obj p) = idf t
        · have := L.id_inj hp ht heq
          subst this
          simp [isTagOf, hid]
        · rw [if_neg heq, if_neg]
          cases t with
          | obj r =>
            simp only [isTagOf, decide_eq_true_eq]
            rintro rfl; exact heq rfl
          | _ => simp
      · have hn' : ∀ x v i, n ≠ .declTag x v i := by
          intro x v i e
          obtain ⟨ho, p, k, hu', _⟩ := (hrec x v i).1 e
          exact htag ⟨ho, p, v, i, k, hu'⟩
        have h1 : ∀ ns, tagIDsFrom (BitVec.ofNat 32 (pre.length + 1)) (n :: ns) (idf t) = tagIDsFrom (BitVec.ofNat 32 (pre.length + 1) + 1) ns (idf t) := by
          intro ns
          cases n with
          | declTag x v i => exact absurd rfl (hn' x v i)
          | _ => rfl
        rw [h1, ih']
        by_cases ho : o.replaceDeclTags = true
        · simp [ho]
        · rw [if_neg ho, if_neg ho, if_neg]
          cases t with
          | obj r =>
            cases u with
            | tag p v i k => exact absurd ⟨by simpa using ho, p, v, i, k, rfl⟩ htag
            | _ => simp [isTagOf]
          | _ => simp
  have := key order [] rfl
  simp only [List.length_nil, Nat.zero_add] at this
  rw [written]
  refine Eq.trans this ?_
  cases t with
  | obj r => simp only; rw [L.tags r ht]
  | _ => simp

theorem final_seen {t : TRef R} (ht : t ∈ order) : final (written o g order idf) (idf t) = some ((seen o g t).map idf) := by
  unfold final
  rw [L.node ht, Option.bind_some, L.tagIDs_eq ht]
  by_cases ho : o.replaceDeclTags = true
  · rw [if_pos ho]
    simp only [List.foldlM_nil, pure]
    congr 2
    cases t with
    | obj r =>
      simp only [seen, extGraph, placeholderOf]
      cases hg : g r <;> simp [Node.map, lower, ho, untag]
    | _ => rfl
  · rw [if_neg ho]
    simp only [Bool.not_eq_true] at ho
    cases t with
    | tag p v i k => rfl
    | ph p => rfl
    | obj r =>
      dsimp only
      rw [fold_tagStep]
      · rw [tagsOfObj_eq]
        simp only [seen, extGraph, placeholderOf]
        cases hg : g r with
        | struct nm s ms ts =>
          simp only [Node.map, lower, ho, Bool.false_eq_true, if_false, List.map_append, tagVal_comp, tagVal_from, List.map_map]
          rw [applyAll_append]
          have := comp_struct (protoAt (written o g order idf) (.struct nm s (ms.map (untag ∘ fun m => ⟨m.name, idf (.obj m.type), m.offset, m.bitfieldSize, m.tags⟩)) []))
            nm s [] (ms.map fun m => ⟨m.name, idf (.obj m.type), m.offset, m.bitfieldSize, m.tags⟩) []
          simp only [List.nil_append, List.length_nil, List.map_map] at this
          simp only [Function.comp_def, untag] at this ⊢
          rw [this, Option.bind_some, own_struct]
          simp
        | union nm s ms ts =>
          simp only [Node.map, lower, ho, Bool.false_eq_true, if_false, List.map_append, tagVal_comp, tagVal_from, List.map_map]
          rw [applyAll_append]
          have := comp_union (protoAt (written o g order idf) (.union nm s (ms.map (untag ∘ fun m => ⟨m.name, idf (.obj m.type), m.offset, m.bitfieldSize, m.tags⟩)) []))
            nm s [] (ms.map fun m => ⟨m.name, idf (.obj m.type), m.offset, m.bitfieldSize, m.tags⟩) []
          simp only [List.nil_append, List.length_nil, List.map_map] at this
          simp only [Function.comp_def, untag] at this ⊢
          rw [this, Option.bind_some, own_union]
          simp
        | typedef nm x ts =>
          simp only [Node.map, lower, ho, Bool.false_eq_true, if_false, tagVal_from]
          rw [own_typedef]; simp
        | var nm x l ts =>
          simp only [Node.map, lower, ho, Bool.false_eq_true, if_false, tagVal_from]
          rw [own_var]; simp
        | func nm x l ts pts =>
          simp only [Node.map, lower, ho, Bool.false_eq_true, if_false, List.map_append, tagVal_comp, tagVal_from]
          by_cases htag : Tagged (arity (g x)) ts pts
          · obtain ⟨⟨ret, ps, hx⟩, _⟩ := (L.writable r ht).func nm x l ts pts hg htag
            have hxo : TRef.obj x ∈ order := by
              rcases L.refs _ ht (.obj x) (by simp [extGraph, hg, Node.map, lower, fixOrder]) with h | h
              · exact h
              · simp [extGraph, hx, Node.map] at h
            have hproto : protoAt (written o g order idf) (.func nm (idf (.obj x)) (if o.stripFuncLinkage then 0 else l) [] []) = some ps.length := by
              simp only [protoAt, L.node hxo, extGraph, hx, Node.map, lower, List.length_map]
            rw [hproto]
            have : protoLen (g x) = ps.length := by rw [hx]; rfl
            rw [this, all_func]
            simp [arity, hx]
          · have hnil : compVals 0 (pts.take (protoLen (g x))) = [] ∧ ts = [] := by
              unfold Tagged at htag
              simp only [ne_eq, not_or, Decidable.not_not, not_exists, not_and] at htag
              exact ⟨(compVals_nil _ 0).2 htag.2, htag.1⟩
            rw [hnil.1, hnil.2]
            have h2 : paramTagsSeen (arity (g x)) [] pts = [] := by
              rw [hnil.2] at htag; simp [paramTagsSeen, htag]
            rw [h2]; rfl
        | _ => rfl
      · intro t' ht'
        have : t' ∈ order.filter (isTagOf r) := by rw [L.tags r ht]; exact ht'
        obtain ⟨h1, h2⟩ := List.mem_filter.1 this
        cases t' with
        | tag p v i k =>
          refine ⟨idf (.obj p), ?_⟩
          rw [L.node h1]
          congr 1
          exact (L.tag_record h1 _ _ _).2 ⟨ho, p, k, rfl, rfl⟩
        | _ => cases h2

/-- The type a pointer belongs to: tags and placeholders belong to the type they were made for. -/
def owner : TRef R → TRef R
  | .obj r => .obj r
  | .tag p _ _ _ => .obj p
  | .ph r => .obj r

omit L in
theorem fix_target (r : R) (u : TRef R) (hu : u ∈ fixOrder (lower o (.ph r) ((g r).map .obj))) (hp : ∀ t v i, g r ≠ .declTag t v i) :
    u = .ph r ∨ ∃ x, u = .obj x ∧ x ∈ Btf.refs (g r) := by
  cases hg : g r with
  | declTag => exact absurd hg (hp _ _ _)
  | enum =>
    rw [hg] at hu
    simp only [Node.map, lower] at hu
    left
    split at hu
    · split at hu
      · simp only [fixOrder, List.mem_map] at hu
        obtain ⟨m, ⟨v, _, rfl⟩, rfl⟩ := hu; rfl
      · simp [fixOrder] at hu
    · simp [fixOrder] at hu
  | typeTag =>
    rw [hg] at hu
    simp only [Node.map, lower] at hu
    right
    split at hu <;> simp only [fixOrder, List.mem_singleton] at hu <;> exact ⟨_, hu, by simp [Btf.refs]⟩
  | funcProto ret ps =>
    rw [hg] at hu
    right
    simp only [Node.map, lower, fixOrder, List.mem_append, List.mem_map, List.mem_singleton] at hu
    rcases hu with ⟨_, ⟨m, hm, rfl⟩, rfl⟩ | rfl
    · exact ⟨_, rfl, by simp only [Btf.refs, List.mem_cons, List.mem_map]; exact .inr ⟨m, hm, rfl⟩⟩
    · exact ⟨_, rfl, by simp [Btf.refs]⟩
  | _ =>
    rw [hg] at hu
    right
    simp only [Node.map, lower, fixOrder, List.mem_cons, List.mem_map, List.not_mem_nil, or_false, untag] at hu
    try first
      | (obtain ⟨_, ⟨_, ⟨m, hm, rfl⟩, rfl⟩, rfl⟩ := hu; exact ⟨_, rfl, by simp only [Btf.refs, List.mem_map]; exact ⟨m, hm, rfl⟩⟩)
      | (obtain ⟨_, ⟨m, hm, rfl⟩, rfl⟩ := hu; exact ⟨_, rfl, by simp only [Btf.refs, List.mem_map]; exact ⟨m, hm, rfl⟩⟩)
      | (rcases hu with rfl | rfl <;> exact ⟨_, rfl, by simp [Btf.refs]⟩)
      | (subst hu; exact ⟨_, rfl, by simp [Btf.refs]⟩)

end Layout
end Ebpf.Btf
