import Verif.Props.BtfDedupTotal
/-!
# C37: types that are merged although they differ; examples
-/
namespace Ebpf.Btf
open Ebpf.BtfSpec

/-! ## a hash function without collisions -/

/-- An injective pairing. -/
def hpair (x y : Nat) : Nat := (x + y) * (x + y) + x

theorem hpair_lt {x y x' y' : Nat} (h : x + y < x' + y') : hpair x y < hpair x' y' := by
  unfold hpair
  have h1 : (x + y + 1) * (x + y + 1) ≤ (x' + y') * (x' + y') := Nat.mul_le_mul h h
  have h2 : (x + y + 1) * (x + y + 1) = (x + y) * (x + y) + 2 * (x + y) + 1 := by
    rw [Nat.add_mul, Nat.mul_add, Nat.mul_add]; omega
  omega

theorem hpair_inj {x y x' y' : Nat} (h : hpair x y = hpair x' y') : x = x' ∧ y = y' := by
  rcases Nat.lt_trichotomy (x + y) (x' + y') with hs | hs | hs
  · have := hpair_lt hs; omega
  · unfold hpair at h; rw [hs] at h; omega
  · have := hpair_lt hs; omega

/-- An injective encoding of lists. -/
def hlist : List Nat → Nat
  | [] => 0
  | x :: l => hpair x (hlist l) + 1

theorem hlist_inj : ∀ {l l' : List Nat}, hlist l = hlist l' → l = l'
  | [], [], _ => rfl
  | [], _ :: _, h => by simp [hlist] at h
  | _ :: _, [], h => by simp [hlist] at h
  | x :: l, x' :: l', h => by
    simp only [hlist, Nat.add_right_cancel_iff] at h
    have := hpair_inj h
    rw [this.1, hlist_inj this.2]

/-- An injective encoding of what is written to a hash. -/
def hitem : HItem → Nat
  | .num (.ofNat n) => 3 * n
  | .num (.negSucc n) => 3 * n + 1
  | .str s => 3 * hlist (s.map (·.toNat)) + 2

theorem hitem_inj {a b : HItem} (h : hitem a = hitem b) : a = b := by
  rcases a with (n | n) | s <;> rcases b with (n' | n') | s' <;> simp only [hitem] at h
  all_goals try omega
  · congr 2; omega
  · congr 2; omega
  · have := hlist_inj (by omega : hlist (s.map (·.toNat)) = hlist (s'.map (·.toNat)))
    congr 1
    have hinj : ∀ (l l' : List (BitVec 8)), l.map (·.toNat) = l'.map (·.toNat) → l = l' := by
      intro l
      induction l with
      | nil => intro l' h; cases l' with
        | nil => rfl
        | cons => simp at h
      | cons x l ih => intro l' h; cases l' with
        | nil => simp at h
        | cons y l' =>
          simp only [List.map_cons, List.cons.injEq] at h
          rw [BitVec.eq_of_toNat_eq h.1, ih l' h.2]
    exact hinj _ _ this

/-- A hash function without collisions. -/
def noCollisions (l : List HItem) : Nat := hlist (l.map hitem)

theorem noCollisions_inj (a b : List HItem) (h : noCollisions a = noCollisions b) : a = b := by
  have := hlist_inj h
  clear h
  induction a generalizing b with
  | nil => cases b with
    | nil => rfl
    | cons => simp at this
  | cons x a ih => cases b with
    | nil => simp at this
    | cons y b =>
      simp only [List.map_cons, List.cons.injEq] at this
      rw [hitem_inj this.1, ih b this.2]

/-! ## graphs -/

/-- Addresses: types, and the tags that the traversal makes up. -/
inductive XR where
  | t (n : Nat)
  | tag (p : Nat) (v : Bytes) (i : Int) (k : Nat)
deriving DecidableEq

/-- A graph from a list of types. -/
def xg (l : List (Node XR)) : Graph XR
  | .t n => l[n]?.getD .void
  | .tag p v i _ => .declTag (.t p) v i

/-- The address of a tag. -/
def xa : XR → Bytes → Int → Nat → XR
  | .t n, v, i, k => .tag n v i k
  | r, _, _, _ => r

theorem xg_allocates (l : List (Node XR)) (h : ∀ n ∈ l, ∀ q w j, n ≠ .declTag q w j) : Allocates xa (xg l) := by
  intro p v i k hp
  cases p with
  | t n => rfl
  | tag p v i k => exact absurd rfl (hp _ _ _)

/-- The numbered types that a type refers to come before it. -/
theorem xg_depth (l : List (Node XR)) (h : ∀ (i : Nat) (n : Node XR), l[i]? = some n → ∀ x ∈ subs n, ∃ j, x = XR.t j ∧ j < i) :
    ∀ i, Depth (xg l) (i + 1) (.t i) := by
  intro i
  induction i using Nat.strongRecOn with
  | ind i ih =>
    intro x hx
    simp only [xg] at hx
    cases hl : l[i]? with
    | none => rw [hl] at hx; cases hx
    | some n =>
      rw [hl] at hx
      obtain ⟨j, rfl, hj⟩ := h i n hl x hx
      exact depth_le _ _ (by omega) (ih j hj)

theorem xg_acyclic (l : List (Node XR)) (h : ∀ (i : Nat) (n : Node XR), l[i]? = some n → ∀ x ∈ subs n, ∃ j, x = XR.t j ∧ j < i)
    (hc : ∀ n ∈ l, ∀ t, n ≠ .cycle t) : Acyclic (xg l) (l.length + 2) := by
  have hd : ∀ i, Depth (xg l) (l.length + 1) (.t i) := by
    intro i
    by_cases hi : i < l.length
    · exact depth_le _ _ (by omega) (xg_depth l h i)
    · intro x hx
      simp only [xg, List.getElem?_eq_none (by omega : l.length ≤ i)] at hx
      cases hx
  constructor
  · intro r
    cases r with
    | t n => exact depth_succ _ _ _ (hd n)
    | tag p v i k =>
      intro x hx
      simp only [xg, subs, List.mem_cons, List.not_mem_nil, or_false] at hx
      subst hx
      exact hd p
  · intro r t hr
    cases r with
    | t n =>
      simp only [xg] at hr
      cases hl : l[n]? with
      | none => rw [hl] at hr; cases hr
      | some m => rw [hl] at hr; exact hc m (List.mem_of_getElem? hl) t hr
    | tag => cases hr

/-! ## merged types that differ -/

/-- `int` and two structs `s { int a : 3 }`, `s { int a : 5 }`. -/
def bfTypes : List (Node XR) := [.int [105] 4 0, .struct [115] 4 [⟨[97], .t 0, 0, 3, []⟩] [], .struct [115] 4 [⟨[97], .t 0, 0, 5, []⟩] []]

/-- The results of adding types. -/
def results (H : List HItem → Nat) (l : List (Node XR)) (ts : List Nat) : Option (Option (List XR)) :=
  (dedupAll H xa 12 (ts.map .t) { graph := xg l }).map fun p => p.1.toOption

/-- Structs that differ in the width of a bit field are merged. -/
theorem dedup_merges_bitfields : results noCollisions bfTypes [1, 2] = some (some [.t 1, .t 1]) ∧ ¬ SameType full (xg bfTypes) (.t 1) (.t 2) := by
  refine ⟨by decide +kernel, fun h => ?_⟩
  have := h 1
  simp [unfold, full, Node.map, xg, bfTypes] at this

/-- Functions that differ in their linkage only. -/
def linkTypes : List (Node XR) := [.void, .funcProto (.t 0) [], .func [102] (.t 1) 0 [] [], .func [102] (.t 1) 1 [] []]

/-- Functions that differ in linkage are merged. -/
theorem dedup_merges_linkage : results noCollisions linkTypes [2, 3] = some (some [.t 2, .t 2]) ∧ ¬ SameType full (xg linkTypes) (.t 2) (.t 3) := by
  refine ⟨by decide +kernel, fun h => ?_⟩
  have := h 1
  simp [unfold, full, Node.map, xg, linkTypes] at this

/-- Typedefs that differ in their declaration tags only. -/
def tagTypes : List (Node XR) := [.int [105] 4 0, .typedef [116] (.t 0) [[97]], .typedef [116] (.t 0) []]

/-- Typedefs that differ in tags are merged. -/
theorem dedup_merges_tags : results noCollisions tagTypes [1, 2] = some (some [.t 1, .t 1]) ∧ ¬ SameType full (xg tagTypes) (.t 1) (.t 2) := by
  refine ⟨by decide +kernel, fun h => ?_⟩
  have := h 1
  simp [unfold, full, Node.map, xg, tagTypes] at this

/-- `struct x { enum e *a }` with a 4 byte or an 8 byte enum, and pointers to them. -/
def enumTypes : List (Node XR) := [.enum [101] 4 false [], .enum [101] 8 false [], .ptr (.t 0), .ptr (.t 1),
  .struct [120] 8 [⟨[97], .t 2, 0, 0, []⟩] [], .struct [120] 8 [⟨[97], .t 3, 0, 0, []⟩] [], .ptr (.t 4), .ptr (.t 5)]

/-- Pointers to structs with pointers to enums of different sizes are merged, although the enums themselves are not. -/
theorem dedup_merges_enums : results noCollisions enumTypes [0, 1, 6, 7] = some (some [.t 0, .t 1, .t 6, .t 6]) ∧
    ¬ SameType full (xg enumTypes) (.t 6) (.t 7) := by
  refine ⟨by decide +kernel, fun h => ?_⟩
  have := h 4
  simp [unfold, full, Node.map, xg, enumTypes, subs] at this

/-- `struct s { struct s *f }` and a pointer to it; `struct s { int *f }` and a pointer to it. -/
def recTypes : List (Node XR) := [.struct [115] 8 [⟨[102], .t 1, 0, 0, []⟩] [], .ptr (.t 0),
  .int [105] 4 0, .ptr (.t 2), .struct [115] 8 [⟨[102], .t 3, 0, 0, []⟩] [], .ptr (.t 4)]

/-- A pointer to the second struct becomes a pointer to the first one, although not even `brief` takes them for the same. -/
theorem dedup_merges_recursive : results noCollisions recTypes [1, 5] = some (some [.t 1, .t 1]) ∧
    ¬ SameType brief (xg recTypes) (.t 1) (.t 5) := by
  refine ⟨by decide +kernel, fun h => ?_⟩
  have := h 4
  simp [unfold, brief, Node.map, xg, recTypes, subs] at this

/-! ## examples -/

/-- Two copies of `struct s { const int a; int *b[2] }` with a tag. -/
def okTypes : List (Node XR) := [.int [105] 4 0, .const (.t 0), .ptr (.t 0), .array (.t 0) (.t 2) 2,
  .struct [115] 24 [⟨[97], .t 1, 0, 0, []⟩, ⟨[98], .t 3, 64, 0, []⟩] [[116]],
  .int [105] 4 0, .const (.t 5), .ptr (.t 5), .array (.t 5) (.t 7) 2,
  .struct [115] 24 [⟨[97], .t 6, 0, 0, []⟩, ⟨[98], .t 8, 64, 0, []⟩] [[116]],
  .struct [115] 24 [⟨[97], .t 6, 0, 0, []⟩, ⟨[98], .t 7, 64, 0, []⟩] []]

theorem okTypes_acyclic : Acyclic (xg okTypes) 13 := xg_acyclic okTypes
  (by
    have : ∀ i ∈ List.range 11, ∀ n ∈ okTypes[i]?, ∀ x ∈ subs n, ∃ j ∈ List.range 11, x = XR.t j ∧ j < i := by decide +kernel
    intro i n hn x hx
    have hi : i < 11 := by
      have := (List.getElem?_eq_some_iff.1 hn).1
      exact this
    obtain ⟨j, _, h1, h2⟩ := this i (List.mem_range.2 hi) n hn x hx
    exact ⟨j, h1, h2⟩)
  (by intro n hn t; revert hn; simp only [okTypes, List.mem_cons, List.not_mem_nil, or_false]; rintro (rfl | rfl | rfl | rfl | rfl | rfl | rfl | rfl | rfl | rfl | rfl) <;> simp)

example : Allocates xa (xg okTypes) := xg_allocates _ (by
  intro n hn q w j; revert hn; simp only [okTypes, List.mem_cons, List.not_mem_nil, or_false]; rintro (rfl | rfl | rfl | rfl | rfl | rfl | rfl | rfl | rfl | rfl | rfl) <;> simp)

example : EnumsAgree (xg okTypes) := by
  intro x y n s sg vs s' sg' hx
  cases x with
  | tag => cases hx
  | t i =>
    simp only [xg] at hx
    cases hl : okTypes[i]? with
    | none => rw [hl] at hx; cases hx
    | some m =>
      rw [hl] at hx
      have hm := List.mem_of_getElem? hl
      simp only [Option.getD_some] at hx
      subst hx
      simp [okTypes] at hm

/-- The copies are merged, the type that differs is not. -/
example : (dedupAll (fun l => l.length) xa 14 [.t 4, .t 9, .t 10] { graph := xg okTypes }).map (fun p => p.1.toOption) = some (some [.t 4, .t 4, .t 10]) := by
  decide +kernel

end Ebpf.Btf
