import Verif.Model.BtfDedup
import Verif.Spec.BtfDedup
/-!
# C37: deduplication of types
-/
namespace Ebpf.Btf
open Ebpf.BtfSpec
variable {R : Type}

theorem map_eq_of_zip {α β : Type} (f : α → β) : ∀ (l l' : List α), l.length = l'.length →
    (l.map f = l'.map f ↔ ∀ p ∈ l.zip l', f p.1 = f p.2)
  | [], [], _ => by simp
  | [], _ :: _, h => by simp at h
  | _ :: _, [], h => by simp at h
  | a :: l, b :: l', h => by
    have ih := map_eq_of_zip f l l' (by simpa using h)
    simp [ih]

theorem brief_subs_length {a b : Node R} (h : brief a = brief b) : (subs a).length = (subs b).length := by
  cases a <;> cases b <;> simp only [brief, Node.map, reduceCtorEq] at h <;> simp only [subs, List.length_cons, List.length_nil, List.length_map]
  all_goals
    injection h
    rename_i hh _
    try (have := congrArg List.length hh; simpa using this)
  all_goals
    first
    | (rename_i hh; have := congrArg List.length hh; simpa using this)
    | skip

abbrev Same (g : Graph R) (a b : R) : Prop := SameType brief g a b

theorem Same.refl (g : Graph R) (a : R) : Same g a a := fun _ => rfl
theorem Same.symm {g : Graph R} {a b : R} (h : Same g a b) : Same g b a := fun n => (h n).symm
theorem Same.trans {g : Graph R} {a b c : R} (h : Same g a b) (h' : Same g b c) : Same g a c := fun n => (h n).trans (h' n)

theorem same_iff (g : Graph R) (a b : R) :
    Same g a b ↔ brief (g a) = brief (g b) ∧ ∀ p ∈ (subs (g a)).zip (subs (g b)), Same g p.1 p.2 := by
  constructor
  · intro h
    have h1 : brief (g a) = brief (g b) := by have := h 1; simp only [unfold, Tree.node.injEq] at this; exact this.1
    refine ⟨h1, fun p hp n => ?_⟩
    have := h (n + 1)
    simp only [unfold, Tree.node.injEq] at this
    exact (map_eq_of_zip _ _ _ (brief_subs_length h1)).1 this.2 p hp
  · rintro ⟨h1, h2⟩ n
    cases n with
    | zero => rfl
    | succ n =>
      simp only [unfold, Tree.node.injEq]
      exact ⟨h1, (map_eq_of_zip _ _ _ (brief_subs_length h1)).2 fun p hp => h2 p hp n⟩

theorem depth_succ (g : Graph R) : ∀ (n : Nat) (r : R), Depth g n r → Depth g (n + 1) r
  | 0, _, h => h.elim
  | n + 1, _, h => fun x hx => depth_succ g n x (h x hx)

theorem depth_min (g : Graph R) (r : R) : ∀ n, Depth g n r → ∃ m, m + 1 ≤ n ∧ Depth g (m + 1) r ∧ ¬ Depth g m r
  | 0, h => h.elim
  | n + 1, h => by
    by_cases h' : Depth g n r
    · obtain ⟨m, a, b, c⟩ := depth_min g r n h'; exact ⟨m, by omega, b, c⟩
    · exact ⟨n, Nat.le_refl _, h, h'⟩

theorem depth_le (g : Graph R) (r : R) {m n : Nat} (hmn : m ≤ n) (h : Depth g m r) : Depth g n r := by
  induction hmn with
  | refl => exact h
  | step _ ih => exact depth_succ g _ _ ih

theorem mem_zip_of {α β : Type} : ∀ (l : List α) (l' : List β), l.length = l'.length → ∀ y ∈ l', ∃ x ∈ l, (x, y) ∈ l.zip l'
  | [], [], _, y, h => by cases h
  | [], _ :: _, h, _, _ => by simp at h
  | _ :: _, [], h, _, _ => by simp at h
  | a :: l, b :: l', h, y, hy => by
    rcases List.mem_cons.1 hy with rfl | hy
    · exact ⟨a, List.mem_cons_self .., by simp⟩
    · obtain ⟨x, hx, hz⟩ := mem_zip_of l l' (by simpa using h) y hy
      exact ⟨x, List.mem_cons_of_mem _ hx, by simp [hz]⟩

theorem depth_unfold (g g' : Graph R) : ∀ (n : Nat) (r r' : R), unfold brief g n r = unfold brief g' n r' → Depth g n r → Depth g' n r'
  | 0, _, _, _, h => h.elim
  | n + 1, r, r', h, hd => by
    simp only [unfold, Tree.node.injEq] at h
    intro x' hx'
    have hl := brief_subs_length h.1
    obtain ⟨x, hx, hz⟩ := mem_zip_of _ _ hl x' hx'
    refine depth_unfold g g' n x x' ?_ (hd x hx)
    have : ∀ (l l' : List R), l.length = l'.length → l.map (unfold brief g n) = l'.map (unfold brief g' n) →
        ∀ p ∈ l.zip l', unfold brief g n p.1 = unfold brief g' n p.2 := by
      intro l
      induction l with
      | nil => intro l' _ _ p hp; simp at hp
      | cons a l ih =>
        intro l' hlen hm p hp
        cases l' with
        | nil => simp at hlen
        | cons b l' =>
          simp only [List.map_cons, List.cons.injEq] at hm
          simp only [List.zip_cons_cons, List.mem_cons] at hp
          rcases hp with rfl | hp
          · exact hm.1
          · exact ih l' (by simpa using hlen) hm.2 p hp
    exact this _ _ hl h.2 (x, x') hz

/-- The cache only holds correct answers. -/
def CacheOk (g : Graph R) (c : EqCache R) : Prop := ∀ e ∈ c, e.2 = true ↔ Same g e.1.1 e.1.2

/-- A correct verdict: the procedure ends and decides `P`. -/
def Decides (g : Graph R) (P : Prop) (v : EqVerdict R) : Prop :=
  ∃ r c, v = some (r, c) ∧ CacheOk g c ∧ ((r = .ok () ∧ P) ∨ (r = .error .notEquivalent ∧ ¬ P))

/-- `f` decides sameness of types up to depth `n`. -/
def Correct (g : Graph R) (n : Nat) (f : R → R → EqCache R → EqVerdict R) : Prop :=
  ∀ a b c, Depth g n a → CacheOk g c → Decides g (Same g a b) (f a b c)

theorem Decides.congr {g : Graph R} {P Q : Prop} {v} (h : P ↔ Q) (d : Decides g P v) : Decides g Q v := by
  obtain ⟨r, c, h1, h2, h3⟩ := d
  refine ⟨r, c, h1, h2, ?_⟩
  rw [← h]; exact h3

theorem decides_ok {g : Graph R} {P : Prop} {c} (hc : CacheOk g c) (h : P) : Decides g P (some (.ok (), c)) :=
  ⟨_, _, rfl, hc, .inl ⟨rfl, h⟩⟩
theorem decides_no {g : Graph R} {P : Prop} {c} (hc : CacheOk g c) (h : ¬ P) : Decides g P (some (.error .notEquivalent, c)) :=
  ⟨_, _, rfl, hc, .inr ⟨rfl, h⟩⟩
theorem decides_ite {g : Graph R} {P Q : Prop} [Decidable Q] {c} (hc : CacheOk g c) (h : Q ↔ ¬ P) :
    Decides g P (if Q then some (.error .notEquivalent, c) else some (.ok (), c)) := by
  by_cases hq : Q
  · rw [if_pos hq]; exact decides_no hc (h.1 hq)
  · rw [if_neg hq]; exact decides_ok hc (Classical.byContradiction fun hp => hq (h.2 hp))

section loops
variable {g : Graph R} {n : Nat} {f : R → R → EqCache R → EqVerdict R} (hf : Correct g n f)
include hf

theorem eqPairs_decides : ∀ (ps : List (R × R)) (c : EqCache R), (∀ p ∈ ps, Depth g n p.1) → CacheOk g c →
    Decides g (∀ p ∈ ps, Same g p.1 p.2) (eqPairs f ps c)
  | [], c, _, hc => decides_ok hc (by simp)
  | (a, b) :: ps, c, hd, hc => by
    obtain ⟨r, c1, h1, h2, h3⟩ := hf a b c (hd (a, b) (List.mem_cons_self ..)) hc
    unfold eqPairs
    rw [h1]
    rcases h3 with ⟨rfl, h3⟩ | ⟨rfl, h3⟩
    · refine (eqPairs_decides ps c1 (fun p hp => hd p (List.mem_cons_of_mem _ hp)) h2).congr ?_
      simp [h3]
    · exact decides_no h2 (fun h => h3 (h (a, b) (List.mem_cons_self ..)))

theorem eqMembers_decides : ∀ (ps : List (Member R × Member R)) (c : EqCache R), (∀ p ∈ ps, Depth g n p.1.type) → CacheOk g c →
    Decides g (∀ p ∈ ps, p.1.name = p.2.name ∧ p.1.offset = p.2.offset ∧ Same g p.1.type p.2.type) (eqMembers f ps c)
  | [], c, _, hc => decides_ok hc (by simp)
  | (a, b) :: ps, c, hd, hc => by
    unfold eqMembers
    by_cases hq : a.name ≠ b.name ∨ a.offset ≠ b.offset
    · rw [if_pos hq]
      refine decides_no hc (fun h => ?_)
      have := h (a, b) (List.mem_cons_self ..)
      rcases hq with hq | hq
      · exact hq this.1
      · exact hq this.2.1
    · rw [if_neg hq]
      simp only [ne_eq, not_or, Decidable.not_not] at hq
      obtain ⟨r, c1, h1, h2, h3⟩ := hf a.type b.type c (hd (a, b) (List.mem_cons_self ..)) hc
      rw [h1]
      rcases h3 with ⟨rfl, h3⟩ | ⟨rfl, h3⟩
      · refine (eqMembers_decides ps c1 (fun p hp => hd p (List.mem_cons_of_mem _ hp)) h2).congr ?_
        simp [h3, hq.1, hq.2]
      · exact decides_no h2 (fun h => h3 (h (a, b) (List.mem_cons_self ..)).2.2)

theorem eqParams_decides : ∀ (ps : List (FuncParam R × FuncParam R)) (c : EqCache R), (∀ p ∈ ps, Depth g n p.1.type) → CacheOk g c →
    Decides g (∀ p ∈ ps, p.1.name = p.2.name ∧ Same g p.1.type p.2.type) (eqParams f ps c)
  | [], c, _, hc => decides_ok hc (by simp)
  | (a, b) :: ps, c, hd, hc => by
    unfold eqParams
    by_cases hq : a.name ≠ b.name
    · rw [if_pos hq]
      exact decides_no hc (fun h => hq (h (a, b) (List.mem_cons_self ..)).1)
    · rw [if_neg hq]
      simp only [ne_eq, Decidable.not_not] at hq
      obtain ⟨r, c1, h1, h2, h3⟩ := hf a.type b.type c (hd (a, b) (List.mem_cons_self ..)) hc
      rw [h1]
      rcases h3 with ⟨rfl, h3⟩ | ⟨rfl, h3⟩
      · refine (eqParams_decides ps c1 (fun p hp => hd p (List.mem_cons_of_mem _ hp)) h2).congr ?_
        simp [h3, hq]
      · exact decides_no h2 (fun h => h3 (h (a, b) (List.mem_cons_self ..)).2)

theorem eqVars_decides : ∀ (ps : List (VarSecinfo R × VarSecinfo R)) (c : EqCache R), (∀ p ∈ ps, Depth g n p.1.type) → CacheOk g c →
    Decides g (∀ p ∈ ps, p.1.offset = p.2.offset ∧ p.1.size = p.2.size ∧ Same g p.1.type p.2.type) (eqVars f ps c)
  | [], c, _, hc => decides_ok hc (by simp)
  | (a, b) :: ps, c, hd, hc => by
    unfold eqVars
    by_cases hq : a.offset ≠ b.offset ∨ a.size ≠ b.size
    · rw [if_pos hq]
      refine decides_no hc (fun h => ?_)
      have := h (a, b) (List.mem_cons_self ..)
      rcases hq with hq | hq
      · exact hq this.1
      · exact hq this.2.1
    · rw [if_neg hq]
      simp only [ne_eq, not_or, Decidable.not_not] at hq
      obtain ⟨r, c1, h1, h2, h3⟩ := hf a.type b.type c (hd (a, b) (List.mem_cons_self ..)) hc
      rw [h1]
      rcases h3 with ⟨rfl, h3⟩ | ⟨rfl, h3⟩
      · refine (eqVars_decides ps c1 (fun p hp => hd p (List.mem_cons_of_mem _ hp)) h2).congr ?_
        simp [h3, hq.1, hq.2]
      · exact decides_no h2 (fun h => h3 (h (a, b) (List.mem_cons_self ..)).2.2)

end loops

theorem members_iff (g : Graph R) : ∀ (ms ms' : List (Member R)), ms.length = ms'.length →
    ((∀ p ∈ ms.zip ms', p.1.name = p.2.name ∧ p.1.offset = p.2.offset ∧ Same g p.1.type p.2.type) ↔
      (ms.map (fun m => (⟨m.name, (), m.offset, 0, []⟩ : Member Unit)) = ms'.map (fun m => (⟨m.name, (), m.offset, 0, []⟩ : Member Unit)) ∧
        ∀ p ∈ (ms.map (·.type)).zip (ms'.map (·.type)), Same g p.1 p.2))
  | [], [], _ => by simp
  | [], _ :: _, h => by simp at h
  | _ :: _, [], h => by simp at h
  | a :: l, b :: l', h => by
    have ih := members_iff g l l' (by simpa using h)
    simp only [List.zip_cons_cons, List.mem_cons, forall_eq_or_imp, List.map_cons, List.cons.injEq, Member.mk.injEq, ih, and_true, true_and]
    constructor
    · rintro ⟨⟨h1, h2, h3⟩, h4, h5⟩; exact ⟨⟨⟨h1, h2⟩, h4⟩, h3, h5⟩
    · rintro ⟨⟨⟨h1, h2⟩, h4⟩, h3, h5⟩; exact ⟨⟨h1, h2, h3⟩, h4, h5⟩

theorem params_iff (g : Graph R) : ∀ (ms ms' : List (FuncParam R)), ms.length = ms'.length →
    ((∀ p ∈ ms.zip ms', p.1.name = p.2.name ∧ Same g p.1.type p.2.type) ↔
      (ms.map (fun m => (⟨m.name, ()⟩ : FuncParam Unit)) = ms'.map (fun m => (⟨m.name, ()⟩ : FuncParam Unit)) ∧
        ∀ p ∈ (ms.map (·.type)).zip (ms'.map (·.type)), Same g p.1 p.2))
  | [], [], _ => by simp
  | [], _ :: _, h => by simp at h
  | _ :: _, [], h => by simp at h
  | a :: l, b :: l', h => by
    have ih := params_iff g l l' (by simpa using h)
    simp only [List.zip_cons_cons, List.mem_cons, forall_eq_or_imp, List.map_cons, List.cons.injEq, FuncParam.mk.injEq, ih, and_true]
    constructor
    · rintro ⟨⟨h1, h3⟩, h4, h5⟩; exact ⟨⟨h1, h4⟩, h3, h5⟩
    · rintro ⟨⟨h1, h4⟩, h3, h5⟩; exact ⟨⟨h1, h3⟩, h4, h5⟩

theorem vars_iff (g : Graph R) : ∀ (ms ms' : List (VarSecinfo R)), ms.length = ms'.length →
    ((∀ p ∈ ms.zip ms', p.1.offset = p.2.offset ∧ p.1.size = p.2.size ∧ Same g p.1.type p.2.type) ↔
      (ms.map (fun m => (⟨(), m.offset, m.size⟩ : VarSecinfo Unit)) = ms'.map (fun m => (⟨(), m.offset, m.size⟩ : VarSecinfo Unit)) ∧
        ∀ p ∈ (ms.map (·.type)).zip (ms'.map (·.type)), Same g p.1 p.2))
  | [], [], _ => by simp
  | [], _ :: _, h => by simp at h
  | _ :: _, [], h => by simp at h
  | a :: l, b :: l', h => by
    have ih := vars_iff g l l' (by simpa using h)
    simp only [List.zip_cons_cons, List.mem_cons, forall_eq_or_imp, List.map_cons, List.cons.injEq, VarSecinfo.mk.injEq, ih, true_and]
    constructor
    · rintro ⟨⟨h1, h2, h3⟩, h4, h5⟩; exact ⟨⟨⟨h1, h2⟩, h4⟩, h3, h5⟩
    · rintro ⟨⟨⟨h1, h2⟩, h4⟩, h3, h5⟩; exact ⟨⟨h1, h2, h3⟩, h4, h5⟩

theorem mem_zip_left {α : Type} {l l' : List α} {p : α × α} (h : p ∈ l.zip l') : p.1 ∈ l := by
  rcases p with ⟨x, y⟩; exact (List.of_mem_zip h).1

theorem compositeEq_decides {g : Graph R} {n : Nat} {f : R → R → EqCache R → EqVerdict R} (hf : Correct g n f) {a b : R}
    (hcomp : (∃ x y z w, g a = .struct x y z w) ∨ (∃ x y z w, g a = .union x y z w))
    (hd : ∀ x ∈ subs (g a), Depth g n x) (c : EqCache R) (hc : CacheOk g c) :
    Decides g (Same g a b) (compositeEq f (g a) (g b) c) := by
  rcases hcomp with ⟨nm, s, ms, ts, hga⟩ | ⟨nm, s, ms, ts, hga⟩
  all_goals
    rw [hga] at hd ⊢
    have hs := same_iff g a b
    rw [hga] at hs
    cases hgb : g b
    all_goals
      unfold compositeEq
      rw [hgb] at hs
      simp only
  case inl.struct n' s' ms' ts' =>
    by_cases hq : nm ≠ n' ∨ s ≠ s' ∨ ms.length ≠ ms'.length
    · rw [if_pos hq]
      refine decides_no hc (fun h => ?_)
      have h1 := (hs.1 h).1
      simp only [brief, Node.struct.injEq, and_true] at h1
      rcases hq with hq | hq | hq
      · exact hq h1.1
      · exact hq h1.2.1
      · exact hq (by simpa using congrArg List.length h1.2.2)
    · rw [if_neg hq]
      simp only [ne_eq, not_or, Decidable.not_not] at hq
      obtain ⟨rfl, rfl, hl⟩ := hq
      refine (eqMembers_decides hf (ms.zip ms') c ?_ hc).congr ?_
      · intro p hp; exact hd _ (by simp only [subs, List.mem_map]; exact ⟨p.1, mem_zip_left hp, rfl⟩)
      · rw [members_iff g ms ms' hl, hs]
        simp only [brief, Node.struct.injEq, true_and, and_true, subs]
  case inr.union n' s' ms' ts' =>
    by_cases hq : nm ≠ n' ∨ s ≠ s' ∨ ms.length ≠ ms'.length
    · rw [if_pos hq]
      refine decides_no hc (fun h => ?_)
      have h1 := (hs.1 h).1
      simp only [brief, Node.union.injEq, and_true] at h1
      rcases hq with hq | hq | hq
      · exact hq h1.1
      · exact hq h1.2.1
      · exact hq (by simpa using congrArg List.length h1.2.2)
    · rw [if_neg hq]
      simp only [ne_eq, not_or, Decidable.not_not] at hq
      obtain ⟨rfl, rfl, hl⟩ := hq
      refine (eqMembers_decides hf (ms.zip ms') c ?_ hc).congr ?_
      · intro p hp; exact hd _ (by simp only [subs, List.mem_map]; exact ⟨p.1, mem_zip_left hp, rfl⟩)
      · rw [members_iff g ms ms' hl, hs]
        simp only [brief, Node.union.injEq, true_and, and_true, subs]
  all_goals
    refine decides_no hc (fun h => ?_)
    have h1 := (hs.1 h).1
    simp only [brief, Node.map, reduceCtorEq] at h1

variable [DecidableEq R]

theorem lookup_mem_pair {α β : Type} [BEq α] [LawfulBEq α] {l : List (α × β)} {a : α} {b : β} (h : l.lookup a = some b) : (a, b) ∈ l := by
  induction l with
  | nil => cases h
  | cons e r ih =>
    rcases e with ⟨k, v⟩
    cases h2 : a == k
    case true =>
      have hk : a = k := by simpa using h2
      subst hk; simp only [List.lookup, BEq.rfl, Option.some.injEq] at h; subst h; exact List.mem_cons_self ..
    case false =>
      simp only [List.lookup, h2] at h
      exact List.mem_cons_of_mem _ (ih h)

theorem cachedEq_decides {g : Graph R} {n : Nat} {f : R → R → EqCache R → EqVerdict R} (hf : Correct g n f) {a b : R}
    (hcomp : (∃ x y z w, g a = .struct x y z w) ∨ (∃ x y z w, g a = .union x y z w))
    (hd : ∀ x ∈ subs (g a), Depth g n x) (c : EqCache R) (hc : CacheOk g c) :
    Decides g (Same g a b) (cachedEq f g a b c) := by
  unfold cachedEq
  cases hl : c.lookup (a, b) with
  | some v =>
    have := hc _ (lookup_mem_pair hl)
    cases v with
    | true => exact decides_ok hc (this.1 rfl)
    | false => exact decides_no hc (fun h => by have := this.2 h; cases this)
  | none =>
    obtain ⟨r, c1, h1, h2, h3⟩ := compositeEq_decides hf (b := b) hcomp hd c hc
    rw [h1]
    rcases h3 with ⟨rfl, h3⟩ | ⟨rfl, h3⟩
    · refine decides_ok ?_ h3
      intro e he
      rcases List.mem_cons.1 he with rfl | he
      · simp [h3]
      · exact h2 e he
    · refine decides_no ?_ h3
      intro e he
      rcases List.mem_cons.1 he with rfl | he
      · simp [h3]
      · exact h2 e he

theorem typesEq_decides (g : Graph R) (hcy : ∀ r t, g r ≠ .cycle t) : ∀ (k : Nat) (a b : R) (vis : List R) (c : EqCache R) (n : Nat),
    n ≤ k → Depth g n a → (∀ v ∈ vis, ¬ Depth g n v) → CacheOk g c → Decides g (Same g a b) (typesEq g k a b vis c)
  | 0, a, b, vis, c, n, hk, hd, _, _ => by
    have : n = 0 := by omega
    subst this; exact hd.elim
  | k + 1, a, b, vis, c, n, hk, hd, hv, hc => by
    obtain ⟨m, hmn, hm, hmin⟩ := depth_min g a n hd
    have hkm : m ≤ k := by omega
    have hvm : ∀ v ∈ vis, ¬ Depth g m v := fun v hv' h => hv v hv' (depth_le g v (by omega) h)
    have hsub : ∀ x ∈ subs (g a), Depth g m x := hm
    have ih : Correct g m (fun a b => typesEq g k a b vis) := fun a b c hd hc => typesEq_decides g hcy k a b vis c m hkm hd hvm hc
    unfold typesEq
    by_cases hab : a = b
    · rw [if_pos hab]; exact decides_ok hc (hab ▸ Same.refl g a)
    rw [if_neg hab]
    have hs := same_iff g a b
    have hcya := hcy a
    cases hga : g a <;> rw [hga] at hs hsub hcya
    case struct => exact cachedEq_decides ih (.inl ⟨_, _, _, _, hga⟩) (by rw [hga]; exact hsub) c hc
    case union => exact cachedEq_decides ih (.inr ⟨_, _, _, _, hga⟩) (by rw [hga]; exact hsub) c hc
    case cycle t => exact absurd rfl (hcya t)
    all_goals
      cases hgb : g b <;> rw [hgb] at hs <;> simp only
    case void.void => exact decides_ok hc (hs.2 (by simp [subs]))
    case int.int => exact decides_ite hc (by rw [hs]; simp [brief, Node.map, subs]; grind)
    case enum.enum => exact decides_ite hc (by rw [hs]; simp [brief, subs]; grind)
    case fwd.fwd => exact decides_ite hc (by rw [hs]; simp [brief, Node.map, subs]; grind)
    case float.float => exact decides_ite hc (by rw [hs]; simp [brief, Node.map, subs]; grind)
    case array.array i t n1 i' t' n2 =>
      by_cases hq : n1 ≠ n2
      · rw [if_pos hq]; refine decides_no hc (fun h => hq ?_)
        have := (hs.1 h).1; simp only [brief, Node.map, Node.array.injEq] at this; exact this.2.2
      · rw [if_neg hq]
        simp only [ne_eq, Decidable.not_not] at hq; subst hq
        refine (eqPairs_decides ih [(i, i'), (t, t')] c ?_ hc).congr ?_
        · intro p hp
          simp only [List.mem_cons, List.not_mem_nil, or_false] at hp
          rcases hp with rfl | rfl
          · exact hsub _ (by simp [subs])
          · exact hsub _ (by simp [subs])
        · rw [hs]; simp [brief, Node.map, subs]
    case ptr.ptr t t' =>
      have hna : a ∉ vis := fun h => hvm a h |>.elim (by exact absurd hd (hv a h))
      rw [if_neg hna]
      refine (typesEq_decides g hcy k t t' (vis ++ [a]) c m hkm (hsub t (by simp [subs])) ?_ hc).congr ?_
      · intro v hv'
        rcases List.mem_append.1 hv' with h | h
        · exact hvm v h
        · simp only [List.mem_cons, List.not_mem_nil, or_false] at h; subst h; exact hmin
      · rw [hs]; simp [brief, Node.map, subs]
    case typedef.typedef n1 t ts n2 t' ts' =>
      by_cases hq : n1 ≠ n2
      · rw [if_pos hq]; refine decides_no hc (fun h => hq ?_)
        have := (hs.1 h).1; simp only [brief, Node.typedef.injEq] at this; exact this.1
      · rw [if_neg hq]
        simp only [ne_eq, Decidable.not_not] at hq; subst hq
        refine (ih t t' c (hsub t (by simp [subs])) hc).congr ?_
        rw [hs]; simp [brief, subs]
    case volatile.volatile t t' =>
      refine (ih t t' c (hsub t (by simp [subs])) hc).congr ?_
      rw [hs]; simp [brief, Node.map, subs]
    case const.const t t' =>
      refine (ih t t' c (hsub t (by simp [subs])) hc).congr ?_
      rw [hs]; simp [brief, Node.map, subs]
    case restrict.restrict t t' =>
      refine (ih t t' c (hsub t (by simp [subs])) hc).congr ?_
      rw [hs]; simp [brief, Node.map, subs]
    case func.func n1 t l ts pts n2 t' l' ts' pts' =>
      by_cases hq : n1 ≠ n2
      · rw [if_pos hq]; refine decides_no hc (fun h => hq ?_)
        have := (hs.1 h).1; simp only [brief, Node.func.injEq] at this; exact this.1
      · rw [if_neg hq]
        simp only [ne_eq, Decidable.not_not] at hq; subst hq
        refine (ih t t' c (hsub t (by simp [subs])) hc).congr ?_
        rw [hs]; simp [brief, subs]
    case funcProto.funcProto r ps r' ps' =>
      obtain ⟨q, c1, h1, h2, h3⟩ := ih r r' c (hsub r (by simp [subs])) hc
      simp only at h1
      rw [h1]
      rcases h3 with ⟨rfl, h3⟩ | ⟨rfl, h3⟩
      · simp only
        by_cases hq : ps.length ≠ ps'.length
        · rw [if_pos hq]; refine decides_no h2 (fun h => hq ?_)
          have := (hs.1 h).1; simp only [brief, Node.map, Node.funcProto.injEq] at this
          simpa using congrArg List.length this.2
        · rw [if_neg hq]
          simp only [ne_eq, Decidable.not_not] at hq
          refine (eqParams_decides ih (ps.zip ps') c1 ?_ h2).congr ?_
          · intro p hp; exact hsub _ (by simp only [subs, List.mem_cons, List.mem_map]; exact .inr ⟨p.1, mem_zip_left hp, rfl⟩)
          · rw [params_iff g ps ps' hq, hs]
            simp [brief, Node.map, subs, h3]
      · refine decides_no h2 (fun h => h3 ?_)
        exact (hs.1 h).2 (r, r') (by simp [subs])
    case var.var n1 t l ts n2 t' l' ts' =>
      by_cases hq : n1 ≠ n2
      · rw [if_pos hq]; refine decides_no hc (fun h => hq ?_)
        have := (hs.1 h).1; simp only [brief, Node.var.injEq] at this; exact this.1
      · rw [if_neg hq]
        simp only [ne_eq, Decidable.not_not] at hq; subst hq
        obtain ⟨q, c1, h1, h2, h3⟩ := ih t t' c (hsub t (by simp [subs])) hc
        simp only at h1
        rw [h1]
        rcases h3 with ⟨rfl, h3⟩ | ⟨rfl, h3⟩
        · simp only
          exact decides_ite h2 (by rw [hs]; simp [brief, subs, h3])
        · refine decides_no h2 (fun h => h3 ?_)
          exact (hs.1 h).2 (t, t') (by simp [subs])
    case datasec.datasec n1 s vs n2 s' vs' =>
      by_cases hq : n1 ≠ n2 ∨ vs.length ≠ vs'.length
      · rw [if_pos hq]; refine decides_no hc (fun h => ?_)
        have := (hs.1 h).1; simp only [brief, Node.datasec.injEq] at this
        rcases hq with hq | hq
        · exact hq this.1
        · exact hq (by simpa using congrArg List.length this.2.2)
      · rw [if_neg hq]
        simp only [ne_eq, not_or, Decidable.not_not] at hq
        obtain ⟨rfl, hl⟩ := hq
        refine (eqVars_decides ih (vs.zip vs') c ?_ hc).congr ?_
        · intro p hp; exact hsub _ (by simp only [subs, List.mem_map]; exact ⟨p.1, mem_zip_left hp, rfl⟩)
        · rw [vars_iff g vs vs' hl, hs]
          simp [brief, subs]
    case declTag.declTag t v i t' v' i' =>
      by_cases hq : v ≠ v' ∨ i ≠ i'
      · rw [if_pos hq]; refine decides_no hc (fun h => ?_)
        have := (hs.1 h).1; simp only [brief, Node.map, Node.declTag.injEq] at this
        rcases hq with hq | hq
        · exact hq this.2.1
        · exact hq this.2.2
      · rw [if_neg hq]
        simp only [ne_eq, not_or, Decidable.not_not] at hq
        obtain ⟨rfl, rfl⟩ := hq
        refine (ih t t' c (hsub t (by simp [subs])) hc).congr ?_
        rw [hs]; simp [brief, Node.map, subs]
    case typeTag.typeTag t v t' v' =>
      by_cases hq : v ≠ v'
      · rw [if_pos hq]; refine decides_no hc (fun h => hq ?_)
        have := (hs.1 h).1; simp only [brief, Node.map, Node.typeTag.injEq] at this; exact this.2
      · rw [if_neg hq]
        simp only [ne_eq, Decidable.not_not] at hq; subst hq
        refine (ih t t' c (hsub t (by simp [subs])) hc).congr ?_
        rw [hs]; simp [brief, Node.map, subs]
    all_goals
      refine decides_no hc (fun h => ?_)
      have h1 := (hs.1 h).1
      simp only [brief, Node.map, reduceCtorEq] at h1

end Ebpf.Btf
