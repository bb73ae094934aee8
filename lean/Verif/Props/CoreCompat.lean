import Verif.Model.CoreCompat
import Verif.Model.BtfTraversal
import Verif.Spec.CoreCompat
import Verif.Spec.BtfTraversal
import Verif.Props.BtfTypes
import Verif.Props.BtfTotal
/-!
# C36, C57: type compatibility and type matching
-/
namespace Ebpf.Btf
open Ebpf.BtfSpec
variable {R : Type}

theorem underlies_iff (g : Graph R) (a u : R) : underlyingType g a = some u ↔ Underlies g a u := underlyingType_exact g a u

/-! ## A generic coinductive checker -/

/-- What is known about a pair of types before the visited set is consulted. -/
inductive Pre (R : Type) | fail (e : CompatErr) | pair (u v : R)

/-- What remains to be checked for a pair: compare two further types, or fail. -/
inductive Ob (R : Type) | check (a b : R) | fail (e : CompatErr)

def runPlan (f : R → R → List (R × R) → Verdict R) : List (Ob R) → List (R × R) → Verdict R
  | [], vis => some (.ok (), vis)
  | .fail e :: _, vis => some (.error e, vis)
  | .check a b :: os, vis =>
    match f a b vis with
    | some (.ok (), vis) => runPlan f os vis
    | r => r

section
variable [DecidableEq R]

def walk (pre : R → R → Pre R) (plan : R → R → List (Ob R)) : Nat → R → R → List (R × R) → Verdict R
  | 0, _, _, _ => none
  | k + 1, a, b, vis =>
    match pre a b with
    | .fail e => some (.error e, vis)
    | .pair u v => if (u, v) ∈ vis then some (.ok (), vis) else runPlan (walk pre plan k) (plan u v) ((u, v) :: vis)

/-- A relation the checker can't refute. -/
def Safe (pre : R → R → Pre R) (plan : R → R → List (Ob R)) (S : R → R → Prop) : Prop :=
  ∀ a b, S a b → ∃ u v, pre a b = .pair u v ∧ ∀ o ∈ plan u v, ∃ x y, o = .check x y ∧ S x y

omit [DecidableEq R] in
theorem runPlan_safe (f : R → R → List (R × R) → Verdict R) (S : R → R → Prop)
    (hf : ∀ a b vis r vis', S a b → f a b vis = some (r, vis') → r = .ok ()) :
    ∀ (os : List (Ob R)), (∀ o ∈ os, ∃ x y, o = .check x y ∧ S x y) → ∀ vis r vis', runPlan f os vis = some (r, vis') → r = .ok ()
  | [], _, vis, r, vis', h => by simp only [runPlan, Option.some.injEq, Prod.mk.injEq] at h; exact h.1.symm
  | o :: os, hos, vis, r, vis', h => by
    obtain ⟨x, y, rfl, hxy⟩ := hos o (List.mem_cons_self ..)
    unfold runPlan at h
    cases hc : f x y vis with
    | none => rw [hc] at h; cases h
    | some p =>
      obtain ⟨r1, vis1⟩ := p
      have := hf x y vis r1 vis1 hxy hc
      subst this
      rw [hc] at h
      exact runPlan_safe f S hf os (fun o ho => hos o (List.mem_cons_of_mem _ ho)) vis1 r vis' h

/-- Completeness: a pair in a safe relation is never rejected. -/
theorem walk_safe (pre : R → R → Pre R) (plan : R → R → List (Ob R)) (S : R → R → Prop) (hS : Safe pre plan S) :
    ∀ (k : Nat) (a b : R) (vis : List (R × R)) (r : Except CompatErr Unit) (vis' : List (R × R)), S a b →
      walk pre plan k a b vis = some (r, vis') → r = .ok ()
  | 0, _, _, _, _, _, _, h => by simp [walk] at h
  | k + 1, a, b, vis, r, vis', hab, h => by
    obtain ⟨u, v, hp, hplan⟩ := hS a b hab
    unfold walk at h
    rw [hp] at h
    simp only at h
    by_cases hm : (u, v) ∈ vis
    · rw [if_pos hm] at h; simp only [Option.some.injEq, Prod.mk.injEq] at h; exact h.1.symm
    · rw [if_neg hm] at h
      exact runPlan_safe _ S (fun a b vis r vis' => walk_safe pre plan S hS k a b vis r vis') _ hplan _ _ _ h

/-- The pair `a`, `b` has been looked at. -/
def Seen (pre : R → R → Pre R) (V : List (R × R)) (a b : R) : Prop := ∃ u v, pre a b = .pair u v ∧ (u, v) ∈ V

/-- Everything planned for `u`, `v` has been looked at. -/
def Done (pre : R → R → Pre R) (plan : R → R → List (Ob R)) (V : List (R × R)) (p : R × R) : Prop :=
  ∀ o ∈ plan p.1 p.2, ∃ x y, o = .check x y ∧ Seen pre V x y

omit [DecidableEq R] in
theorem Seen.mono {pre : R → R → Pre R} {V W : List (R × R)} {a b : R} (h : Seen pre V a b) (hs : ∀ p ∈ V, p ∈ W) : Seen pre W a b := by
  obtain ⟨u, v, h1, h2⟩ := h; exact ⟨u, v, h1, hs _ h2⟩

omit [DecidableEq R] in
theorem Done.mono {pre : R → R → Pre R} {plan : R → R → List (Ob R)} {V W : List (R × R)} {p : R × R} (h : Done pre plan V p)
    (hs : ∀ p ∈ V, p ∈ W) : Done pre plan W p := by
  intro o ho; obtain ⟨x, y, h1, h2⟩ := h o ho; exact ⟨x, y, h1, h2.mono hs⟩

theorem runPlan_sound (pre : R → R → Pre R) (plan : R → R → List (Ob R)) (f : R → R → List (R × R) → Verdict R)
    (hf : ∀ a b vis vis', f a b vis = some (.ok (), vis') → (∀ p ∈ vis, p ∈ vis') ∧ Seen pre vis' a b ∧
      ∀ p ∈ vis', p ∉ vis → Done pre plan vis' p) :
    ∀ (os : List (Ob R)) vis vis', runPlan f os vis = some (.ok (), vis') →
      (∀ p ∈ vis, p ∈ vis') ∧ (∀ o ∈ os, ∃ x y, o = .check x y ∧ Seen pre vis' x y) ∧ ∀ p ∈ vis', p ∉ vis → Done pre plan vis' p
  | [], vis, vis', h => by
    simp only [runPlan, Option.some.injEq, Prod.mk.injEq, true_and] at h
    subst h
    exact ⟨fun _ h => h, by simp, fun p h1 h2 => absurd h1 h2⟩
  | .fail e :: os, vis, vis', h => by simp [runPlan] at h
  | .check a b :: os, vis, vis', h => by
    unfold runPlan at h
    cases hc : f a b vis with
    | none => rw [hc] at h; cases h
    | some p =>
      obtain ⟨r1, vis1⟩ := p
      rw [hc] at h
      cases r1 with
      | error e => simp at h
      | ok x =>
        obtain ⟨h1, h2, h3⟩ := hf a b vis vis1 hc
        obtain ⟨i1, i2, i3⟩ := runPlan_sound pre plan f hf os vis1 vis' h
        refine ⟨fun p hp => i1 p (h1 p hp), ?_, ?_⟩
        · intro o ho
          rcases List.mem_cons.1 ho with rfl | ho
          · exact ⟨a, b, rfl, h2.mono i1⟩
          · exact i2 o ho
        · intro p hp hn
          by_cases hp1 : p ∈ vis1
          · exact (h3 p hp1 hn).mono i1
          · exact i3 p hp hp1

theorem walk_sound (pre : R → R → Pre R) (plan : R → R → List (Ob R)) : ∀ (k : Nat) (a b : R) (vis vis' : List (R × R)),
    walk pre plan k a b vis = some (.ok (), vis') → (∀ p ∈ vis, p ∈ vis') ∧ Seen pre vis' a b ∧
      ∀ p ∈ vis', p ∉ vis → Done pre plan vis' p
  | 0, _, _, _, _, h => by simp [walk] at h
  | k + 1, a, b, vis, vis', h => by
    unfold walk at h
    cases hp : pre a b with
    | fail e => rw [hp] at h; simp at h
    | pair u v =>
      rw [hp] at h
      simp only at h
      by_cases hm : (u, v) ∈ vis
      · rw [if_pos hm] at h
        simp only [Option.some.injEq, Prod.mk.injEq, true_and] at h
        subst h
        exact ⟨fun _ h => h, ⟨u, v, hp, hm⟩, fun p h1 h2 => absurd h1 h2⟩
      · rw [if_neg hm] at h
        obtain ⟨h1, h2, h3⟩ := runPlan_sound pre plan (walk pre plan k) (fun a b vis vis' => walk_sound pre plan k a b vis vis')
          (plan u v) _ vis' h
        refine ⟨fun p hp => h1 p (List.mem_cons_of_mem _ hp), ⟨u, v, hp, h1 _ (List.mem_cons_self ..)⟩, ?_⟩
        intro p hp hn
        by_cases he : p = (u, v)
        · subst he; exact h2
        · exact h3 p hp (fun h => by rcases List.mem_cons.1 h with h | h; exact he h; exact hn h)

/-- Soundness: acceptance yields a safe relation. -/
theorem walk_accepts (pre : R → R → Pre R) (plan : R → R → List (Ob R)) (k : Nat) (a b : R) (vis' : List (R × R))
    (h : walk pre plan k a b [] = some (.ok (), vis')) : ∃ S, Safe pre plan S ∧ S a b := by
  obtain ⟨_, h2, h3⟩ := walk_sound pre plan k a b [] vis' h
  refine ⟨Seen pre vis', ?_, h2⟩
  intro x y ⟨u, v, h4, h5⟩
  exact ⟨u, v, h4, h3 (u, v) h5 (by simp)⟩

/-! ### Termination -/

/-- The pairs over `U` not yet visited. -/
def fresh (U : List R) (vis : List (R × R)) : Nat := ((U.flatMap fun a => U.map fun b => (a, b)).filter (fun p => p ∉ vis)).length

theorem filter_lt {α : Type} (l : List α) (p q : α → Bool) (h : ∀ x ∈ l, q x = true → p x = true) (x : α) (hx : x ∈ l) (hp : p x = true)
    (hq : q x = false) : (l.filter q).length < (l.filter p).length := by
  induction l with
  | nil => simp at hx
  | cons y l ih =>
    have hle : (l.filter q).length ≤ (l.filter p).length := by
      rw [← List.countP_eq_length_filter, ← List.countP_eq_length_filter]
      exact List.countP_mono_left (fun z hz => h z (List.mem_cons_of_mem _ hz))
    simp only [List.filter_cons]
    rcases List.mem_cons.1 hx with rfl | hx
    · simp only [hp, hq, if_true]; simp; omega
    · have := ih (fun z hz => h z (List.mem_cons_of_mem _ hz)) hx
      have hy := h y (List.mem_cons_self ..)
      cases hqy : q y
      · cases hpy : p y <;> simp <;> omega
      · simp [hy hqy]; omega

theorem fresh_mono (U : List R) {V W : List (R × R)} (h : ∀ p ∈ V, p ∈ W) : fresh U W ≤ fresh U V := by
  unfold fresh
  rw [← List.countP_eq_length_filter, ← List.countP_eq_length_filter]
  apply List.countP_mono_left
  intro p _ hp
  simp only [decide_eq_true_eq] at hp ⊢
  exact fun hv => hp (h p hv)

theorem fresh_cons (U : List R) (vis : List (R × R)) (u v : R) (hu : u ∈ U) (hv : v ∈ U) (hn : (u, v) ∉ vis) :
    fresh U ((u, v) :: vis) < fresh U vis := by
  unfold fresh
  apply filter_lt _ _ _ _ (u, v)
  · simp only [List.mem_flatMap, List.mem_map]; exact ⟨u, hu, v, hv, rfl⟩
  · simpa using hn
  · simp
  · intro x _ hx
    simp only [List.mem_cons, not_or, decide_eq_true_eq] at hx ⊢
    exact hx.2

/-- Verdicts only add to the visited set. -/
theorem walk_grows (pre : R → R → Pre R) (plan : R → R → List (Ob R)) : ∀ (k : Nat) (a b : R) (vis : List (R × R)) (r) (vis' : List (R × R)),
    walk pre plan k a b vis = some (r, vis') → ∀ p ∈ vis, p ∈ vis'
  | 0, _, _, _, _, _, h => by simp [walk] at h
  | k + 1, a, b, vis, r, vis', h => by
    have run : ∀ (os : List (Ob R)) vis r vis', runPlan (walk pre plan k) os vis = some (r, vis') → ∀ p ∈ vis, p ∈ vis' := by
      intro os
      induction os with
      | nil => intro vis r vis' h; simp only [runPlan, Option.some.injEq, Prod.mk.injEq] at h; rw [← h.2]; exact fun _ h => h
      | cons o os ih =>
        intro vis r vis' h
        cases o with
        | fail e => simp only [runPlan, Option.some.injEq, Prod.mk.injEq] at h; rw [← h.2]; exact fun _ h => h
        | check x y =>
          unfold runPlan at h
          cases hc : walk pre plan k x y vis with
          | none => rw [hc] at h; cases h
          | some q =>
            obtain ⟨r1, vis1⟩ := q
            have h1 := walk_grows pre plan k x y vis r1 vis1 hc
            rw [hc] at h
            cases r1 with
            | error e => simp only [Option.some.injEq, Prod.mk.injEq] at h; rw [← h.2]; exact h1
            | ok z => exact fun p hp => ih vis1 r vis' h p (h1 p hp)
    unfold walk at h
    cases hp : pre a b with
    | fail e => rw [hp] at h; simp only [Option.some.injEq, Prod.mk.injEq] at h; rw [← h.2]; exact fun _ h => h
    | pair u v =>
      rw [hp] at h
      simp only at h
      by_cases hm : (u, v) ∈ vis
      · rw [if_pos hm] at h; simp only [Option.some.injEq, Prod.mk.injEq] at h; rw [← h.2]; exact fun _ h => h
      · rw [if_neg hm] at h
        exact fun p hp => run _ _ _ _ h p (List.mem_cons_of_mem _ hp)

/-- On a finite set of types, closed under what the rules look at, there is always a verdict. -/
theorem walk_total (pre : R → R → Pre R) (plan : R → R → List (Ob R)) (U : List R)
    (hpre : ∀ a ∈ U, ∀ b ∈ U, ∀ u v, pre a b = .pair u v → u ∈ U ∧ v ∈ U)
    (hplan : ∀ u ∈ U, ∀ v ∈ U, ∀ x y, Ob.check x y ∈ plan u v → x ∈ U ∧ y ∈ U) :
    ∀ (k : Nat) (a b : R) (vis : List (R × R)), a ∈ U → b ∈ U → fresh U vis < k → ∃ r vis', walk pre plan k a b vis = some (r, vis')
  | 0, _, _, _, _, _, h => by omega
  | k + 1, a, b, vis, ha, hb, hk => by
    unfold walk
    cases hp : pre a b with
    | fail e => exact ⟨_, _, rfl⟩
    | pair u v =>
      obtain ⟨hu, hv⟩ := hpre a ha b hb u v hp
      simp only
      by_cases hm : (u, v) ∈ vis
      · rw [if_pos hm]; exact ⟨_, _, rfl⟩
      · rw [if_neg hm]
        have hlt := fresh_cons U vis u v hu hv hm
        have key : ∀ (os : List (Ob R)) vis1, (∀ o ∈ os, o ∈ plan u v) → fresh U vis1 < k →
            ∃ r vis', runPlan (walk pre plan k) os vis1 = some (r, vis') := by
          intro os
          induction os with
          | nil => intro vis1 _ _; exact ⟨_, _, rfl⟩
          | cons o os ih =>
            intro vis1 hos hf
            cases o with
            | fail e => exact ⟨_, _, rfl⟩
            | check x y =>
              obtain ⟨hx, hy⟩ := hplan u hu v hv x y (hos _ (List.mem_cons_self ..))
              obtain ⟨r1, vis2, h1⟩ := walk_total pre plan U hpre hplan k x y vis1 hx hy hf
              unfold runPlan
              rw [h1]
              cases r1 with
              | error e => exact ⟨_, _, rfl⟩
              | ok z =>
                refine ih vis2 (fun o ho => hos o (List.mem_cons_of_mem _ ho)) ?_
                have := fresh_mono U (walk_grows pre plan k x y vis1 _ vis2 h1)
                omega
        exact key (plan u v) _ (fun _ h => h) (by omega)


/-! ## Compatibility is such a checker -/

def compatPre (g : Graph R) (l t : R) : Pre R :=
  match underlyingType g l, underlyingType g t with
  | some u, some v => if (g u).kindTag ≠ (g v).kindTag then .fail .incompatible else .pair u v
  | none, none => .fail .unsupported
  | _, _ => .fail .incompatible

def pairs (ps ps' : List (FuncParam R)) : List (R × R) := (ps.map (·.type)).zip (ps'.map (·.type))

def compatPlan (a b : Node R) : List (Ob R) :=
  match a, b with
  | .void, _ => []
  | .struct .., _ => []
  | .union .., _ => []
  | .enum .., _ => []
  | .fwd .., _ => []
  | .int .., _ => []
  | .ptr a, .ptr b => [.check a b]
  | .array i a _, .array j b _ => [.check i j, .check a b]
  | .funcProto r ps, .funcProto r' ps' =>
    .check r r' :: (if ps.length ≠ ps'.length then [.fail .incompatible] else (pairs ps ps').map fun p => .check p.1 p.2)
  | _, _ => [.fail .unsupported]

omit [DecidableEq R] in
theorem runPlan_pairs (f : R → R → List (R × R) → Verdict R) : ∀ (l : List (R × R)) vis,
    runPlan f (l.map fun p => .check p.1 p.2) vis = checkPairs f l vis
  | [], vis => rfl
  | (a, b) :: l, vis => by
    simp only [List.map_cons, runPlan, checkPairs]
    cases f a b vis with
    | none => rfl
    | some p =>
      obtain ⟨r, v⟩ := p
      cases r with
      | error e => rfl
      | ok x => exact runPlan_pairs f l v

omit [DecidableEq R] in
theorem runPlan_one (f : R → R → List (R × R) → Verdict R) (a b : R) (vis) : runPlan f [.check a b] vis = f a b vis := by
  simp only [runPlan]
  split
  · next h => rw [h]
  · rfl

theorem compatible_walk (g : Graph R) : ∀ (k : Nat) (l t : R) (vis : List (R × R)),
    compatible g k l t vis = walk (compatPre g) (fun u v => compatPlan (g u) (g v)) k l t vis
  | 0, _, _, _ => rfl
  | k + 1, l, t, vis => by
    have ih : compatible g k = walk (compatPre g) (fun u v => compatPlan (g u) (g v)) k := by
      funext a b vis; exact compatible_walk g k a b vis
    unfold compatible walk
    rw [← ih]
    unfold compatPre
    cases hu : underlyingType g l with
    | none => cases hv : underlyingType g t <;> rfl
    | some u =>
      cases hv : underlyingType g t with
      | none => rfl
      | some v =>
        simp only
        by_cases hk : (g u).kindTag ≠ (g v).kindTag
        · simp [hk]
        · simp only [hk, if_false]
          by_cases hm : (u, v) ∈ vis
          · simp [hm]
          · simp only [hm, if_false]
            generalize (u, v) :: vis = vis
            generalize compatible g k = f
            generalize g u = a at hk ⊢
            generalize g v = b at hk ⊢
            cases a <;> cases b <;> simp only [Node.kindTag, Nat.reduceEqDiff, ne_eq, not_true, not_false_eq_true] at hk <;>
              first
              | rfl
              | exact (runPlan_one f _ _ _).symm
              | skip
            · next i a n j b m =>
              simp only [compatPlan]
              conv => rhs; unfold runPlan
              cases f i j vis with
              | none => rfl
              | some p =>
                obtain ⟨r, w⟩ := p
                cases r with
                | error e => rfl
                | ok x => exact (runPlan_one f a b w).symm
            · next r ps r' ps' =>
              simp only [compatPlan]
              conv => rhs; unfold runPlan
              cases f r r' vis with
              | none => rfl
              | some p =>
                obtain ⟨q, w⟩ := p
                cases q with
                | error e => rfl
                | ok x =>
                  simp only
                  by_cases hl : ps.length = ps'.length
                  · simp only [hl, ne_eq, not_true, if_false]; exact (runPlan_pairs f _ w).symm
                  · simp only [hl, ne_eq, not_false_eq_true, if_true]; rfl

/-! ## The checker respects exactly the consistent relations -/

omit [DecidableEq R] in
theorem mem_pairs (ps ps' : List (FuncParam R)) (S : R → R → Prop) :
    (∀ o ∈ (pairs ps ps').map (fun p => Ob.check p.1 p.2), ∃ x y, o = .check x y ∧ S x y) ↔
    ∀ (i : Nat) (p p' : FuncParam R), ps[i]? = some p → ps'[i]? = some p' → S p.type p'.type := by
  constructor
  · intro h i p p' hp hp'
    obtain ⟨x, y, h1, h2⟩ := h (.check p.type p'.type) (by
      refine List.mem_map.2 ⟨(p.type, p'.type), ?_, rfl⟩
      rw [List.mem_iff_getElem?]
      exact ⟨i, by simp [pairs, List.getElem?_zip_eq_some, hp, hp']⟩)
    injection h1 with h3 h4
    rw [h3, h4]; exact h2
  · intro h o ho
    obtain ⟨⟨x, y⟩, h1, rfl⟩ := List.mem_map.1 ho
    obtain ⟨i, hi⟩ := List.mem_iff_getElem?.1 h1
    simp only [pairs, List.getElem?_zip_eq_some, List.getElem?_map, Option.map_eq_some_iff] at hi
    obtain ⟨⟨p, hp, rfl⟩, ⟨p', hp', rfl⟩⟩ := hi
    exact ⟨_, _, rfl, h i p p' hp hp'⟩

omit [DecidableEq R] in
theorem compatPlan_shape (S : R → R → Prop) (a b : Node R) :
    (a.kindTag = b.kindTag ∧ ∀ o ∈ compatPlan a b, ∃ x y, o = .check x y ∧ S x y) ↔ SameShape S a b := by
  constructor
  · rintro ⟨hk, h⟩
    cases a <;> cases b <;> simp only [Node.kindTag, Nat.reduceEqDiff] at hk <;> simp only [compatPlan] at h
    case void.void => exact .void
    case int.int => exact .int
    case struct.struct => exact .struct
    case union.union => exact .union
    case enum.enum => exact .enum
    case fwd.fwd => exact .fwd
    case ptr.ptr => simp at h; exact .ptr (by grind)
    case array.array => simp at h; exact .array (by grind) (by grind)
    case funcProto.funcProto r ps r' ps' =>
      by_cases hl : ps.length = ps'.length
      · simp only [hl, ne_eq, not_true, if_false, List.mem_cons, forall_eq_or_imp] at h
        obtain ⟨⟨x, y, h1, h2⟩, h3⟩ := h
        injection h1 with h4 h5
        exact .funcProto (by rw [h4, h5]; exact h2) hl ((mem_pairs ps ps' S).1 h3)
      · simp [hl] at h
    all_goals simp at h
  · intro h
    cases h with
    | void => simp [Node.kindTag, compatPlan]
    | int => simp [Node.kindTag, compatPlan]
    | struct => simp [Node.kindTag, compatPlan]
    | union => simp [Node.kindTag, compatPlan]
    | enum => simp [Node.kindTag, compatPlan]
    | fwd => simp [Node.kindTag, compatPlan]
    | ptr h => simp [Node.kindTag, compatPlan]; exact ⟨_, _, ⟨rfl, rfl⟩, h⟩
    | array h1 h2 => simp [Node.kindTag, compatPlan]; exact ⟨⟨_, _, ⟨rfl, rfl⟩, h1⟩, ⟨_, _, ⟨rfl, rfl⟩, h2⟩⟩
    | @funcProto r ps r' ps' h1 hl h2 =>
      refine ⟨rfl, ?_⟩
      simp only [compatPlan, hl, ne_eq, not_true, if_false, List.mem_cons, forall_eq_or_imp]
      exact ⟨⟨r, r', rfl, h1⟩, (mem_pairs ps ps' S).2 h2⟩

omit [DecidableEq R] in
theorem compat_safe (g : Graph R) (S : R → R → Prop) :
    Safe (compatPre g) (fun u v => compatPlan (g u) (g v)) S ↔ Consistent g S := by
  constructor
  · intro h a b hab
    obtain ⟨u, v, h1, h2⟩ := h a b hab
    unfold compatPre at h1
    split at h1 <;> try cases h1
    next u' v' hu hv =>
      split at h1 <;> try cases h1
      next hk =>
      exact ⟨_, _, (underlies_iff g a _).1 hu, (underlies_iff g b _).1 hv, (compatPlan_shape S _ _).1 ⟨by simpa using hk, h2⟩⟩
  · intro h a b hab
    obtain ⟨u, v, hu, hv, hs⟩ := h a b hab
    obtain ⟨h1, h2⟩ := (compatPlan_shape S _ _).2 hs
    refine ⟨u, v, ?_, h2⟩
    simp [compatPre, (underlies_iff g a u).2 hu, (underlies_iff g b v).2 hv, h1]

/-- C36: whenever the check terminates, it accepts exactly the compatible pairs. -/
theorem compatible_exact (g : Graph R) (k : Nat) (a b : R) (r : Except CompatErr Unit) (vis : List (R × R))
    (h : compatible g k a b [] = some (r, vis)) : r = .ok () ↔ Compatible g a b := by
  rw [compatible_walk] at h
  constructor
  · rintro rfl
    obtain ⟨S, h1, h2⟩ := walk_accepts _ _ k a b vis h
    exact ⟨S, (compat_safe g S).1 h1, h2⟩
  · rintro ⟨S, h1, h2⟩
    exact walk_safe _ _ S ((compat_safe g S).2 h1) k a b [] r vis h2 h

/-- A finite set of types closed under references. -/
def ClosedSet (g : Graph R) (U : List R) : Prop := ∀ a ∈ U, ∀ x ∈ refs (g a), x ∈ U

omit [DecidableEq R] in
theorem closed_underlies {g : Graph R} {U : List R} (hU : ClosedSet g U) {a u : R} (ha : a ∈ U) (h : Underlies g a u) : u ∈ U := by
  obtain ⟨d, h1, hs, h2⟩ := h
  clear h1 h2
  induction hs with
  | refl a => exact ha
  | step hp _ ih =>
    apply ih
    apply hU _ ha
    cases hp with
    | qual hq => cases hq <;> simp [refs, *]
    | typedef h => simp [refs, h]

omit [DecidableEq R] in
theorem pairs_mem {ps ps' : List (FuncParam R)} {x y : R} (h : (x, y) ∈ pairs ps ps') :
    (∃ p ∈ ps, p.type = x) ∧ ∃ p ∈ ps', p.type = y := by
  have := List.of_mem_zip h
  simpa using this

/-- C36: on a finite type graph the check always terminates, cyclic types included. -/
theorem compatible_terminates (g : Graph R) (U : List R) (hU : ClosedSet g U) (a b : R) (ha : a ∈ U) (hb : b ∈ U) (k : Nat)
    (hk : U.length * U.length < k) : ∃ r vis, compatible g k a b [] = some (r, vis) := by
  rw [compatible_walk]
  refine walk_total _ _ U ?_ ?_ k a b [] ha hb ?_
  · intro a ha b hb u v h
    unfold compatPre at h
    split at h <;> try cases h
    next u' v' hu hv =>
      split at h <;> try cases h
      exact ⟨closed_underlies hU ha ((underlies_iff g a _).1 hu), closed_underlies hU hb ((underlies_iff g b _).1 hv)⟩
  · intro u hu v hv x y h
    have h1 := hU u hu
    have h2 := hU v hv
    unfold compatPlan at h
    split at h <;> simp [refs, *] at h h1 h2 <;> try grind
    next r ps r' ps' _ _ =>
      rcases h with h | h
      · grind
      · split at h
        · obtain ⟨q, h3, h4⟩ := List.mem_map.1 h
          injection h4 with h5 h6
          obtain ⟨⟨p, hp, h7⟩, p', hp', h8⟩ := pairs_mem (x := q.1) (y := q.2) h3
          rw [← h5, ← h6, ← h7, ← h8]
          exact ⟨h1.2 _ hp, h2.2 _ hp'⟩
        · simp at h
  · refine Nat.lt_of_le_of_lt ?_ hk
    unfold fresh
    refine Nat.le_trans (List.length_filter_le ..) ?_
    simp [List.length_flatMap, List.map_const']

/-! ## Consequences: compatibility is an equivalence that ignores qualifiers -/

omit [DecidableEq R] in
theorem underlies_unique {g : Graph R} {a u v : R} (h1 : Underlies g a u) (h2 : Underlies g a v) : u = v := by
  have h1 := (underlies_iff g a u).2 h1
  rw [(underlies_iff g a v).2 h2] at h1
  simpa using h1.symm

omit [DecidableEq R] in
theorem sameShape_symm {S : R → R → Prop} {a b : Node R} (h : SameShape S a b) : SameShape (fun x y => S y x) b a := by
  cases h with
  | void => exact .void
  | int => exact .int
  | struct => exact .struct
  | union => exact .union
  | enum => exact .enum
  | fwd => exact .fwd
  | ptr h => exact .ptr h
  | array h1 h2 => exact .array h1 h2
  | funcProto h1 hl h2 => exact .funcProto h1 hl.symm (fun i p p' hp hp' => h2 i p' p hp' hp)

omit [DecidableEq R] in
/-- C36: compatibility is symmetric. -/
theorem compatible_symm (g : Graph R) (a b : R) (h : Compatible g a b) : Compatible g b a := by
  obtain ⟨S, h1, h2⟩ := h
  refine ⟨fun x y => S y x, ?_, h2⟩
  intro x y hxy
  obtain ⟨u, v, hu, hv, hs⟩ := h1 y x hxy
  exact ⟨v, u, hv, hu, sameShape_symm hs⟩

omit [DecidableEq R] in
theorem sameShape_trans {S T : R → R → Prop} {a b c : Node R} (h : SameShape S a b) (h' : SameShape T b c) :
    SameShape (fun x z => ∃ y, S x y ∧ T y z) a c := by
  cases h with
  | void => cases h'; exact .void
  | int => cases h'; exact .int
  | struct => cases h'; exact .struct
  | union => cases h'; exact .union
  | enum => cases h'; exact .enum
  | fwd => cases h'; exact .fwd
  | ptr h => cases h' with | ptr h' => exact .ptr ⟨_, h, h'⟩
  | array h1 h2 => cases h' with | array h3 h4 => exact .array ⟨_, h1, h3⟩ ⟨_, h2, h4⟩
  | @funcProto _ _ r' ps' h1 hl h2 =>
    cases h' with
    | funcProto h3 hl' h4 =>
      refine .funcProto ⟨_, h1, h3⟩ (hl.trans hl') ?_
      intro i p p'' hp hp''
      have hi : i < ps'.length := by
        have := (List.getElem?_eq_some_iff.1 hp).1; omega
      exact ⟨ps'[i].type, h2 i p ps'[i] hp (List.getElem?_eq_getElem hi), h4 i ps'[i] p'' (List.getElem?_eq_getElem hi) hp''⟩

omit [DecidableEq R] in
/-- C36: compatibility is transitive. -/
theorem compatible_trans (g : Graph R) (a b c : R) (h : Compatible g a b) (h' : Compatible g b c) : Compatible g a c := by
  obtain ⟨S, h1, h2⟩ := h
  obtain ⟨T, h3, h4⟩ := h'
  refine ⟨fun x z => ∃ y, S x y ∧ T y z, ?_, ⟨b, h2, h4⟩⟩
  rintro x z ⟨y, hxy, hyz⟩
  obtain ⟨u, v, hu, hv, hs⟩ := h1 x y hxy
  obtain ⟨v', w, hv', hw, ht⟩ := h3 y z hyz
  obtain rfl := underlies_unique hv hv'
  exact ⟨u, w, hu, hw, sameShape_trans hs ht⟩

omit [DecidableEq R] in
/-- C36: qualifiers and typedefs on either side don't matter. -/
theorem compatible_qualifiers (g : Graph R) (a a' b b' u v : R) (ha : Underlies g a u) (ha' : Underlies g a' u) (hb : Underlies g b v)
    (hb' : Underlies g b' v) : Compatible g a b ↔ Compatible g a' b' := by
  have key : ∀ a a' b b' : R, Underlies g a u → Underlies g a' u → Underlies g b v → Underlies g b' v → Compatible g a b → Compatible g a' b' := by
    rintro a a' b b' ha ha' hb hb' ⟨S, h1, h2⟩
    refine ⟨fun x y => S x y ∨ (x = a' ∧ y = b'), ?_, Or.inr ⟨rfl, rfl⟩⟩
    have mono : ∀ {m n : Node R}, SameShape S m n → SameShape (fun x y => S x y ∨ (x = a' ∧ y = b')) m n := by
      intro m n h
      cases h with
      | void => exact .void
      | int => exact .int
      | struct => exact .struct
      | union => exact .union
      | enum => exact .enum
      | fwd => exact .fwd
      | ptr h => exact .ptr (Or.inl h)
      | array h1 h2 => exact .array (Or.inl h1) (Or.inl h2)
      | funcProto h1 hl h2 => exact .funcProto (Or.inl h1) hl (fun i p p' hp hp' => Or.inl (h2 i p p' hp hp'))
    rintro x y (hxy | ⟨rfl, rfl⟩)
    · obtain ⟨u, v, hu, hv, hs⟩ := h1 x y hxy
      exact ⟨u, v, hu, hv, mono hs⟩
    · obtain ⟨u', v', hu, hv, hs⟩ := h1 a b h2
      obtain rfl := underlies_unique ha hu
      obtain rfl := underlies_unique hb hv
      exact ⟨_, _, ha', hb', mono hs⟩
  exact ⟨key a a' b b' ha ha' hb hb', key a' a b' b ha' ha hb' hb⟩

/-- The kinds the compatibility rules speak about. -/
def Covered (n : Node R) : Prop :=
  match n with
  | .void => True
  | .int .. => True
  | .struct .. => True
  | .union .. => True
  | .enum .. => True
  | .fwd .. => True
  | .ptr _ => True
  | .array .. => True
  | .funcProto .. => True
  | _ => False

omit [DecidableEq R] in
/-- C36: a type is compatible with itself if everything reachable from it is of a kind the rules cover. -/
theorem compatible_refl_partial (g : Graph R) (P : R → Prop) (hP : ∀ a, P a → ∃ u, Underlies g a u ∧ Covered (g u) ∧ ∀ x ∈ refs (g u), P x)
    (a : R) (ha : P a) : Compatible g a a := by
  refine ⟨fun x y => x = y ∧ P x, ?_, rfl, ha⟩
  rintro x y ⟨rfl, hx⟩
  obtain ⟨u, hu, hc, hr⟩ := hP x hx
  refine ⟨u, u, hu, hu, ?_⟩
  generalize g u = n at hc hr
  cases n <;> simp only [Covered] at hc
  case void => exact .void
  case int => exact .int
  case struct => exact .struct
  case union => exact .union
  case enum => exact .enum
  case fwd => exact .fwd
  case ptr => exact .ptr ⟨rfl, hr _ (by simp [refs])⟩
  case array => exact .array ⟨rfl, hr _ (by simp [refs])⟩ ⟨rfl, hr _ (by simp [refs])⟩
  case funcProto r ps =>
    refine .funcProto ⟨rfl, hr _ (by simp [refs])⟩ rfl ?_
    intro i p p' hp hp'
    rw [hp] at hp'; injection hp' with h; subst h
    refine ⟨rfl, hr _ ?_⟩
    simp only [refs, List.mem_cons, List.mem_map]
    exact Or.inr ⟨p, List.mem_of_getElem? hp, rfl⟩

end

end Ebpf.Btf
