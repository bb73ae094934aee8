import Verif.Props.BtfDedup
/-!
# C37: what deduplication preserves
-/
namespace Ebpf.Btf
open Ebpf.BtfSpec
variable {R : Type}

theorem map_modify_same {α β : Type} (f : α → β) (h : α → α) (hf : ∀ a, f (h a) = f a) : ∀ (l : List α) (i : Nat),
    (l.modify i h).map f = l.map f
  | [], i => by cases i <;> rfl
  | a :: l, 0 => by simp [hf]
  | a :: l, i + 1 => by simp [map_modify_same f h hf l i]

theorem map_modify_set {α β : Type} (f : α → β) (h : α → α) (c : β) (hf : ∀ a, f (h a) = c) : ∀ (l : List α) (i : Nat),
    (l.modify i h).map f = (l.map f).set i c
  | [], i => by cases i <;> rfl
  | a :: l, 0 => by simp [hf]
  | a :: l, i + 1 => by simp [map_modify_set f h c hf l i]

theorem brief_setKid (i : Nat) (c : R) (n : Node R) : brief (n.setKid i c) = brief n := by
  cases n <;> simp only [Node.setKid, brief, Node.map]
  case struct => rw [map_modify_same]; intro a; rfl
  case union => rw [map_modify_same]; intro a; rfl
  case datasec => rw [map_modify_same]; intro a; rfl
  case funcProto =>
    cases i
    · rfl
    · simp only [brief, Node.map]; rw [map_modify_same]; intro a; rfl

theorem subs_setKid (i : Nat) (c : R) (n : Node R) {t : R} (h : n.kids[i]? = some t) : subs (n.setKid i c) = (subs n).set i c := by
  cases n <;> simp only [Node.setKid, subs, Node.kids] at h ⊢
  case struct => rw [map_modify_set _ _ c]; intro a; rfl
  case union => rw [map_modify_set _ _ c]; intro a; rfl
  case datasec => rw [map_modify_set _ _ c]; intro a; rfl
  case funcProto =>
    cases i
    · rfl
    · simp only [subs, List.set_cons_succ]; rw [map_modify_set _ _ c]; intro a; rfl
  case array =>
    match i, h with
    | 0, _ => rfl
    | 1, _ => rfl
    | i + 2, h => simp at h
  all_goals
    match i, h with
    | 0, h => first | rfl | simp at h
    | i + 1, h => simp at h

theorem kids_sub {n : Node R} {i : Nat} {t : R} (h : n.kids[i]? = some t) : (subs n)[i]? = some t := by
  cases n <;> simp only [subs, Node.kids] at h ⊢ <;> first | exact h | simp at h

theorem list_set_same {α : Type} (l : List α) (i : Nat) (a : α) (h : l[i]? = some a) : l.set i a = l := by
  induction l generalizing i with
  | nil => simp at h
  | cons b l ih =>
    cases i with
    | zero => simp at h; subst h; rfl
    | succ i => simp at h; simp [ih i h]

variable [DecidableEq R]

/-- Replacing a referenced type by one that means the same leaves the meaning of all types alone. -/
theorem unfold_setKid (g : Graph R) (r : R) (i : Nat) (t c : R) (hk : (g r).kids[i]? = some t) (hs : Same g t c) :
    ∀ n x, unfold brief (fun x => if x = r then (g r).setKid i c else g x) n x = unfold brief g n x
  | 0, _ => rfl
  | n + 1, x => by
    have ih := unfold_setKid g r i t c hk hs n
    have ih' : unfold brief (fun x => if x = r then (g r).setKid i c else g x) n = unfold brief g n := funext ih
    simp only [unfold, ih']
    by_cases hx : x = r
    · subst hx
      simp only [if_true, brief_setKid, subs_setKid i c (g x) hk, Tree.node.injEq, true_and, List.map_set]
      exact list_set_same _ _ _ (by rw [List.getElem?_map, kids_sub hk]; simp [hs n])
    · simp only [if_neg hx]

/-- Two graphs in which every type means the same. -/
def SameGraph (g g' : Graph R) : Prop := ∀ n x, unfold brief g' n x = unfold brief g n x

omit [DecidableEq R] in
theorem SameGraph.same {g g' : Graph R} (h : SameGraph g g') (a b : R) : Same g' a b ↔ Same g a b :=
  ⟨fun hs n => by rw [← h n a, ← h n b]; exact hs n, fun hs n => by rw [h n a, h n b]; exact hs n⟩

omit [DecidableEq R] in
theorem SameGraph.depth {g g' : Graph R} (h : SameGraph g g') {n : Nat} {a : R} (hd : Depth g n a) : Depth g' n a :=
  depth_unfold g g' n a a (h n a).symm hd

omit [DecidableEq R] in
theorem SameGraph.cacheOk {g g' : Graph R} (h : SameGraph g g') (c : EqCache R) : CacheOk g' c ↔ CacheOk g c := by
  unfold CacheOk
  simp only [h.same]

omit [DecidableEq R] in
theorem SameGraph.brief_eq {g g' : Graph R} (h : SameGraph g g') (r : R) : brief (g' r) = brief (g r) := by
  have := h 1 r
  simp only [unfold, Tree.node.injEq] at this
  exact this.1

omit [DecidableEq R] in
theorem cycle_of_brief {n : Node R} (h : ∀ t, n ≠ .cycle t) : brief n ≠ .cycle () := by
  cases n <;> simp only [brief, Node.map, ne_eq, reduceCtorEq, not_false_eq_true, not_true_eq_false]
  case cycle t => exact absurd rfl (h t)

omit [DecidableEq R] in
theorem SameGraph.nocycle {g g' : Graph R} (h : SameGraph g g') (hc : ∀ r t, g r ≠ .cycle t) : ∀ r t, g' r ≠ .cycle t := by
  intro r t he
  have := h.brief_eq r
  rw [he] at this
  exact cycle_of_brief (hc r) this.symm

omit [DecidableEq R] in
theorem SameGraph.acyclic {g g' : Graph R} {N : Nat} (h : SameGraph g g') (ha : Acyclic g N) : Acyclic g' N :=
  ⟨fun r => h.depth (ha.depth r), h.nocycle ha.real⟩

theorem typesEq_correct {g : Graph R} {N : Nat} (ha : Acyclic g N) {k : Nat} (hk : N ≤ k) (a b : R) (c : EqCache R) (hc : CacheOk g c) :
    Decides g (Same g a b) (typesEq g k a b [] c) :=
  typesEq_decides g ha.real k a b [] c N hk (ha.depth a) (by intro v hv; cases hv) hc

/-! ## hashes -/

/-- A node without what neither `typesEquivalent` nor `hash` looks at. -/
def looks : Node R → Node Unit
  | .struct n s ms _ => .struct n s (ms.map fun m => ⟨m.name, (), m.offset, 0, []⟩) []
  | .union n s ms _ => .union n s (ms.map fun m => ⟨m.name, (), m.offset, 0, []⟩) []
  | .typedef n _ _ => .typedef n () []
  | .func n _ _ _ _ => .func n () 0 [] []
  | .var n _ l _ => .var n () l []
  | .datasec n _ vs => .datasec n 0 (vs.map fun v => ⟨(), v.offset, v.size⟩)
  | n => n.map fun _ => ()

/-- What is written to a hash: by the node itself, and the hashes of the types it refers to. -/
def itemsL : Node Unit → List Nat → List HItem
  | .void, _ => [.num 0]
  | .int n s e, _ => [.num 1, .str n, .num s.toNat, .num e.toNat]
  | .ptr _, hs => [.num 2] ++ hs.map fun h => .num h
  | .array _ _ n, hs => [.num 3, .num n.toNat, .num hs.head!, .num hs.head!]
  | .struct n s ms _, hs => [.num 4, .str n, .num s.toNat, .num ms.length] ++ (ms.zip hs).flatMap fun p => [.str p.1.name, .num p.1.offset.toNat, .num p.2]
  | .union n s ms _, hs => [.num 5, .str n, .num s.toNat, .num ms.length] ++ (ms.zip hs).flatMap fun p => [.str p.1.name, .num p.1.offset.toNat, .num p.2]
  | .enum n s sg vs, _ => [.num 6, .str n, .num s.toNat, .num (if sg then 1 else 0)] ++ vs.flatMap fun v => [.str v.name, .num v.value.toNat]
  | .fwd n f, _ => [.num 7, .str n, .num f]
  | .typedef n _ _, hs => [.num 8, .str n] ++ hs.map fun h => .num h
  | .volatile _, hs => [.num 9] ++ hs.map fun h => .num h
  | .const _, hs => [.num 10] ++ hs.map fun h => .num h
  | .restrict _, hs => [.num 11] ++ hs.map fun h => .num h
  | .func n _ _ _ _, hs => [.num 12, .str n] ++ hs.map fun h => .num h
  | .funcProto _ ps, hs => [.num 13] ++ ((ps.zip hs.tail).flatMap fun p => [.str p.1.name, .num p.2]) ++ [.num hs.head!]
  | .var n _ l _, hs => [.num 14, .str n, .num l] ++ hs.map fun h => .num h
  | .datasec n _ vs, hs => [.num 15, .str n] ++ (vs.zip hs).flatMap fun p => [.num p.1.offset.toNat, .num p.1.size.toNat, .num p.2]
  | .declTag _ v i, hs => [.num 17, .str v, .num i] ++ hs.map fun h => .num h
  | .typeTag _ v, hs => [.num 18, .str v] ++ hs.map fun h => .num h
  | .float n s, _ => [.num 16, .str n, .num s.toNat]
  | .cycle _, _ => []

/-- The budget for the types a node refers to. -/
def budgetOf (g : Graph R) (n : Node R) (b : Int) : Int :=
  match n with
  | .ptr t => ptrBudget g t b
  | .funcProto .. => if b ≥ 0 then b + 1 else b
  | _ => b

/-- The hash of a type without a cache. -/
def hashP (g : Graph R) (H : List HItem → Nat) : Nat → R → Int → Nat
  | 0, _, _ => 0
  | k + 1, r, b => if b = 0 then 0 else H (itemsL (looks (g r)) ((subs (g r)).map fun t => hashP g H k t (budgetOf g (g r) b)))

omit [DecidableEq R] in
theorem hashP_stable (g : Graph R) (H : List HItem → Nat) : ∀ (n k : Nat) (r : R) (b : Int), Depth g n r → n ≤ k → hashP g H k r b = hashP g H n r b
  | 0, _, _, _, h, _ => h.elim
  | n + 1, 0, _, _, _, hk => by omega
  | n + 1, k + 1, r, b, hd, hk => by
    unfold hashP
    by_cases hb : b = 0
    · rw [if_pos hb, if_pos hb]
    · rw [if_neg hb, if_neg hb]
      have : (subs (g r)).map (fun t => hashP g H k t (budgetOf g (g r) b)) = (subs (g r)).map (fun t => hashP g H n t (budgetOf g (g r) b)) :=
        List.map_congr_left fun t ht => hashP_stable g H n k t _ (hd t ht) (by omega)
      rw [this]

/-- The cache of hashes only holds right ones. -/
def HCacheOk (g : Graph R) (H : List HItem → Nat) (N : Nat) (c : HCache R) : Prop := ∀ e ∈ c, e.2 = hashP g H N e.1.1 e.1.2

/-- `h` computes `v` for the types in question. -/
def Computes (g : Graph R) (H : List HItem → Nat) (N : Nat) (v : R → Nat) (h : R → HCache R → HResult R) (t : R) : Prop :=
  ∀ c, HCacheOk g H N c → ∃ c', h t c = some (some (v t), c') ∧ HCacheOk g H N c'

omit [DecidableEq R] in
theorem hashList_eq {g : Graph R} {H : List HItem → Nat} {N : Nat} {v : R → Nat} {h : R → HCache R → HResult R} :
    ∀ (l : List (List HItem × R)) (c : HCache R), (∀ p ∈ l, Computes g H N v h p.2) → HCacheOk g H N c →
      ∃ c', hashList h l c = some (some (l.flatMap fun p => p.1 ++ [.num (v p.2)]), c') ∧ HCacheOk g H N c'
  | [], c, _, hc => ⟨c, rfl, hc⟩
  | (pre, t) :: l, c, hh, hc => by
    obtain ⟨c1, h1, h2⟩ := hh (pre, t) (List.mem_cons_self ..) c hc
    obtain ⟨c2, h3, h4⟩ := hashList_eq l c1 (fun p hp => hh p (List.mem_cons_of_mem _ hp)) h2
    refine ⟨c2, ?_, h4⟩
    unfold hashList
    rw [h1]; simp only; rw [h3]; simp only [List.flatMap_cons]

omit [DecidableEq R] in
theorem one_eq {g : Graph R} {H : List HItem → Nat} {N : Nat} {v : R → Nat} {h : R → HCache R → HResult R} (t : R) (pre : List HItem) (c : HCache R)
    (hh : Computes g H N v h t) (hc : HCacheOk g H N c) :
    ∃ c', finish H pre (hashList h [([], t)] c) = some (some (H (pre ++ [.num (v t)])), c') ∧ HCacheOk g H N c' := by
  obtain ⟨c1, h1, h2⟩ := hashList_eq (h := h) (v := v) [([], t)] c (fun p hp => by simp at hp; subst hp; exact hh) hc
  exact ⟨c1, by rw [h1]; rfl, h2⟩

theorem hash_eq (g : Graph R) (hcy : ∀ r t, g r ≠ .cycle t) (H : List HItem → Nat) (N : Nat) : ∀ (n k : Nat) (r : R) (b : Int) (c : HCache R),
    Depth g n r → n ≤ k → n ≤ N → HCacheOk g H N c →
    ∃ c', hash g H k r b c = some (some (hashP g H N r b), c') ∧ HCacheOk g H N c'
  | 0, _, _, _, _, h, _, _, _ => h.elim
  | n + 1, 0, _, _, _, _, hk, _, _ => by omega
  | n + 1, k + 1, r, b, c, hd, hk, hN, hc => by
    have hN' : N = (N - 1) + 1 := by omega
    have hP : hashP g H N r b = if b = 0 then 0 else H (itemsL (looks (g r)) ((subs (g r)).map fun t => hashP g H (N - 1) t (budgetOf g (g r) b))) := by
      rw [hN']; rfl
    have hst : ∀ t ∈ subs (g r), ∀ b, hashP g H (N - 1) t b = hashP g H N t b := fun t ht b => by
      rw [hashP_stable g H n (N - 1) t b (hd t ht) (by omega), hashP_stable g H n N t b (hd t ht) (by omega)]
    have hP' : hashP g H N r b = if b = 0 then 0 else H (itemsL (looks (g r)) ((subs (g r)).map fun t => hashP g H N t (budgetOf g (g r) b))) := by
      rw [hP, List.map_congr_left (fun t ht => hst t ht _)]
    have ih : ∀ t ∈ subs (g r), ∀ b, Computes g H N (fun t => hashP g H N t b) (fun t => hash g H k t b) t := fun t ht b c hc =>
      hash_eq g hcy H N n k t b c (hd t ht) (by omega) (by omega) hc
    unfold hash
    by_cases hb : b = 0
    · rw [if_pos hb] at hP' ⊢; rw [hP']; exact ⟨c, rfl, hc⟩
    rw [if_neg hb] at hP' ⊢
    have hcyr := hcy r
    have hcomp : ∀ (kind : Int) (nm : Bytes) (s : BitVec 32) (ms : List (Member R)), (∀ m ∈ ms, m.type ∈ subs (g r)) →
        hashP g H N r b = H ([.num kind, .str nm, .num s.toNat, .num ms.length] ++ ms.flatMap fun m => [.str m.name, .num m.offset.toNat, .num (hashP g H N m.type b)]) →
        ∃ c', hashComposite H (fun t => hash g H k t b) r kind nm s ms b c = some (some (hashP g H N r b), c') ∧ HCacheOk g H N c' := by
      intro kind nm s ms hms hv
      unfold hashComposite
      cases hl : c.lookup (r, b) with
      | some v =>
        have := hc _ (lookup_mem_pair hl)
        simp only at this
        exact ⟨c, by simp only [this], hc⟩
      | none =>
        obtain ⟨c1, h1, h2⟩ := hashList_eq (g := g) (H := H) (N := N) (h := fun t => hash g H k t b) (v := fun t => hashP g H N t b)
          (ms.map fun m => ([.str m.name, .num m.offset.toNat], m.type)) c
          (fun p hp => by
            obtain ⟨m, hm, rfl⟩ := List.mem_map.1 hp
            exact ih _ (hms m hm) b) hc
        simp only [h1, finish]
        refine ⟨_, by rw [hv, List.flatMap_map]; rfl, ?_⟩
        intro e he
        rcases List.mem_cons.1 he with rfl | he
        · simp only; rw [hv]; simp
        · exact h2 e he
    cases hga : g r <;> rw [hga] at hP' ih hcyr
    case cycle t => exact absurd rfl (hcyr t)
    case struct nm s ms ts =>
      simp only [looks, itemsL, subs, budgetOf, List.map_map, List.length_map, List.zip_map', List.flatMap_map] at hP'
      exact hcomp 4 nm s ms (by intro m hm; rw [hga]; simp only [subs, List.mem_map]; exact ⟨m, hm, rfl⟩) hP'
    case union nm s ms ts =>
      simp only [looks, itemsL, subs, budgetOf, List.map_map, List.length_map, List.zip_map', List.flatMap_map] at hP'
      exact hcomp 5 nm s ms (by intro m hm; rw [hga]; simp only [subs, List.mem_map]; exact ⟨m, hm, rfl⟩) hP'
    case void => rw [hP']; exact ⟨c, rfl, hc⟩
    case int => rw [hP']; exact ⟨c, rfl, hc⟩
    case enum => rw [hP']; exact ⟨c, rfl, hc⟩
    case fwd => rw [hP']; exact ⟨c, rfl, hc⟩
    case float => rw [hP']; exact ⟨c, rfl, hc⟩
    case ptr t => rw [hP']; exact one_eq t [.num 2] c (ih t (by simp [subs]) _) hc
    case typedef nm t ts => rw [hP']; exact one_eq t [.num 8, .str nm] c (ih t (by simp [subs]) _) hc
    case volatile t => rw [hP']; exact one_eq t [.num 9] c (ih t (by simp [subs]) _) hc
    case const t => rw [hP']; exact one_eq t [.num 10] c (ih t (by simp [subs]) _) hc
    case restrict t => rw [hP']; exact one_eq t [.num 11] c (ih t (by simp [subs]) _) hc
    case func nm t _ _ _ => rw [hP']; exact one_eq t [.num 12, .str nm] c (ih t (by simp [subs]) _) hc
    case var nm t l _ => rw [hP']; exact one_eq t [.num 14, .str nm, .num l] c (ih t (by simp [subs]) _) hc
    case declTag t v i => rw [hP']; exact one_eq t [.num 17, .str v, .num i] c (ih t (by simp [subs]) _) hc
    case typeTag t v => rw [hP']; exact one_eq t [.num 18, .str v] c (ih t (by simp [subs]) _) hc
    case array i t nn =>
      obtain ⟨c1, h1, h2⟩ := ih i (by simp [subs]) b c hc
      obtain ⟨c2, h3, h4⟩ := ih t (by simp [subs]) b c1 h2
      simp only at h1 h3 ⊢
      rw [h1]; simp only; rw [h3]
      exact ⟨c2, by rw [hP']; rfl, h4⟩
    case funcProto ret ps =>
      simp only
      obtain ⟨c1, h1, h2⟩ := hashList_eq (g := g) (H := H) (N := N) (h := fun t => hash g H k t (if b ≥ 0 then b + 1 else b))
        (v := fun t => hashP g H N t (if b ≥ 0 then b + 1 else b))
        (ps.map (fun p => ([HItem.str p.name], p.type)) ++ [([], ret)]) c
        (fun p hp => by
          rcases List.mem_append.1 hp with hp | hp
          · obtain ⟨m, hm, rfl⟩ := List.mem_map.1 hp
            exact ih _ (by simp only [subs, List.mem_cons, List.mem_map]; exact .inr ⟨m, hm, rfl⟩) _
          · simp at hp; subst hp; exact ih _ (by simp [subs]) _) hc
      rw [h1]
      refine ⟨c1, ?_, h2⟩
      rw [hP']
      simp only [finish, looks, Node.map, itemsL, subs, budgetOf, List.map_cons, List.tail_cons, List.map_map, List.zip_map', List.flatMap_map, List.flatMap_append,
        List.flatMap_cons, List.flatMap_nil, List.append_nil, List.head!]
      simp [List.append_assoc]
    case datasec nm s vs =>
      simp only
      obtain ⟨c1, h1, h2⟩ := hashList_eq (g := g) (H := H) (N := N) (h := fun t => hash g H k t b)
        (v := fun t => hashP g H N t b)
        (vs.map fun v => ([HItem.num v.offset.toNat, .num v.size.toNat], v.type)) c
        (fun p hp => by
          obtain ⟨m, hm, rfl⟩ := List.mem_map.1 hp
          exact ih _ (by simp only [subs, List.mem_map]; exact ⟨m, hm, rfl⟩) _) hc
      rw [h1]
      refine ⟨c1, ?_, h2⟩
      rw [hP']
      simp only [finish, looks, Node.map, itemsL, subs, budgetOf, List.map_map, List.zip_map', List.flatMap_map]
      rfl

end Ebpf.Btf
