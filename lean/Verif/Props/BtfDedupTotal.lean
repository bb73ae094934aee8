import Verif.Props.BtfDedupPreserve
/-!
# C37: deduplication preserves what `brief` sees, for acyclic type graphs
-/
namespace Ebpf.Btf
open Ebpf.BtfSpec
variable {R : Type}

/-- A result that is neither an error nor out of fuel. -/
def HashGood {α : Type} (x : Option (Option α × HCache R)) : Prop := ∃ v c, x = some (some v, c)

theorem hashList_good {h : R → HCache R → HResult R} : ∀ (l : List (List HItem × R)) (c : HCache R), (∀ p ∈ l, ∀ c, HashGood (h p.2 c)) → HashGood (hashList h l c)
  | [], c, _ => ⟨_, _, rfl⟩
  | (pre, t) :: l, c, hh => by
    obtain ⟨v, c1, h1⟩ := hh (pre, t) (List.mem_cons_self ..) c
    obtain ⟨w, c2, h2⟩ := hashList_good l c1 (fun p hp => hh p (List.mem_cons_of_mem _ hp))
    unfold hashList
    simp only at h1
    rw [h1]; simp only; rw [h2]
    exact ⟨_, _, rfl⟩

theorem finish_good {H : List HItem → Nat} {pre : List HItem} {x : Option (Option (List HItem) × HCache R)} (h : HashGood x) : HashGood (finish H pre x) := by
  obtain ⟨v, c, rfl⟩ := h; exact ⟨_, _, rfl⟩

variable [DecidableEq R]

theorem hash_total (g : Graph R) (hcy : ∀ r t, g r ≠ .cycle t) (H : List HItem → Nat) : ∀ (n k : Nat) (r : R) (b : Int) (c : HCache R),
    Depth g n r → n ≤ k → HashGood (hash g H k r b c)
  | 0, _, _, _, _, h, _ => h.elim
  | n + 1, 0, _, _, _, _, hk => by omega
  | n + 1, k + 1, r, b, c, hd, hk => by
    have ih : ∀ t ∈ subs (g r), ∀ b c, HashGood (hash g H k t b c) := fun t ht b c => hash_total g hcy H n k t b c (hd t ht) (by omega)
    unfold hash
    by_cases hb : b = 0
    · rw [if_pos hb]; exact ⟨_, _, rfl⟩
    rw [if_neg hb]
    have hcyr := hcy r
    have hcomp : ∀ (kind : Int) (nm : Bytes) (s : BitVec 32) (ms : List (Member R)), (∀ m ∈ ms, m.type ∈ subs (g r)) →
        HashGood (hashComposite H (fun t => hash g H k t b) r kind nm s ms b c) := by
      intro kind nm s ms hms
      unfold hashComposite
      cases hl : c.lookup (r, b) with
      | some v => exact ⟨_, _, rfl⟩
      | none =>
        obtain ⟨v, c1, h1⟩ := finish_good (H := H) (pre := [.num kind, .str nm, .num s.toNat, .num ms.length])
          (hashList_good (h := fun t => hash g H k t b) (ms.map fun m => ([.str m.name, .num m.offset.toNat], m.type)) c
          (fun p hp c => by
            obtain ⟨m, hm, rfl⟩ := List.mem_map.1 hp
            exact ih _ (hms m hm) b c))
        simp only [h1]
        exact ⟨_, _, rfl⟩
    have hone : ∀ (pre : List HItem) (t : R) (b : Int), t ∈ subs (g r) → HashGood (finish H pre (hashList (fun t => hash g H k t b) [([], t)] c)) :=
      fun pre t b ht => finish_good (hashList_good _ _ (fun p hp c => by simp at hp; subst hp; exact ih t ht b c))
    cases hga : g r <;> rw [hga] at ih hcyr hone
    case cycle t => exact absurd rfl (hcyr t)
    case struct nm s ms ts => exact hcomp 4 nm s ms (by intro m hm; rw [hga]; simp only [subs, List.mem_map]; exact ⟨m, hm, rfl⟩)
    case union nm s ms ts => exact hcomp 5 nm s ms (by intro m hm; rw [hga]; simp only [subs, List.mem_map]; exact ⟨m, hm, rfl⟩)
    case void => exact ⟨_, _, rfl⟩
    case int => exact ⟨_, _, rfl⟩
    case enum => exact ⟨_, _, rfl⟩
    case fwd => exact ⟨_, _, rfl⟩
    case float => exact ⟨_, _, rfl⟩
    case array i t nn =>
      obtain ⟨v, c1, h1⟩ := ih i (by simp [subs]) b c
      obtain ⟨w, c2, h3⟩ := ih t (by simp [subs]) b c1
      simp only
      rw [h1]; simp only; rw [h3]
      exact ⟨_, _, rfl⟩
    case funcProto ret ps =>
      simp only
      refine finish_good (hashList_good _ _ (fun p hp c => ?_))
      rcases List.mem_append.1 hp with hp | hp
      · obtain ⟨m, hm, rfl⟩ := List.mem_map.1 hp
        exact ih _ (by simp only [subs, List.mem_cons, List.mem_map]; exact .inr ⟨m, hm, rfl⟩) _ c
      · simp at hp; subst hp; exact ih _ (by simp [subs]) _ c
    case datasec nm s vs =>
      simp only
      refine finish_good (hashList_good _ _ (fun p hp c => ?_))
      obtain ⟨m, hm, rfl⟩ := List.mem_map.1 hp
      exact ih _ (by simp only [subs, List.mem_map]; exact ⟨m, hm, rfl⟩) _ c
    all_goals exact hone _ _ _ (by simp [subs])

/-- What holds of a deduper that started with `g0`. -/
structure DInv (g0 : Graph R) (d : Deduper R) : Prop where
  graph : SameGraph g0 d.graph
  done : ∀ e ∈ d.done, Same g0 e.1 e.2
  cache : CacheOk g0 d.eqCache

open Classical in
/-- The first type in `l` that means the same as `t`. -/
noncomputable def firstSame (g0 : Graph R) (t : R) (l : List R) : Option R := l.find? fun x => decide (Same g0 x t)

theorem firstSame_cons_pos {g0 : Graph R} {t x : R} {l : List R} (h : Same g0 x t) : firstSame g0 t (x :: l) = some x := by
  simp [firstSame, List.find?, h]

theorem firstSame_cons_neg {g0 : Graph R} {t x : R} {l : List R} (h : ¬ Same g0 x t) : firstSame g0 t (x :: l) = firstSame g0 t l := by
  simp [firstSame, List.find?, h]

theorem firstSame_same {g0 : Graph R} {t x : R} : ∀ {l : List R}, firstSame g0 t l = some x → Same g0 x t
  | [], h => by simp [firstSame] at h
  | y :: l, h => by
    by_cases hy : Same g0 y t
    · rw [firstSame_cons_pos hy] at h; cases h; exact hy
    · rw [firstSame_cons_neg hy] at h; exact firstSame_same h

theorem firstSame_append {g0 : Graph R} {t x : R} (l' : List R) : ∀ {l : List R}, firstSame g0 t l = some x → firstSame g0 t (l ++ l') = some x
  | [], h => by simp [firstSame] at h
  | y :: l, h => by
    rw [List.cons_append]
    by_cases hy : Same g0 y t
    · rw [firstSame_cons_pos hy] at h ⊢; exact h
    · rw [firstSame_cons_neg hy] at h ⊢; exact firstSame_append l' h

theorem firstSame_none_append {g0 : Graph R} {t : R} (l' : List R) : ∀ {l : List R}, firstSame g0 t l = none → firstSame g0 t (l ++ l') = firstSame g0 t l'
  | [], _ => rfl
  | y :: l, h => by
    rw [List.cons_append]
    by_cases hy : Same g0 y t
    · rw [firstSame_cons_pos hy] at h; cases h
    · rw [firstSame_cons_neg hy] at h ⊢; exact firstSame_none_append l' h

theorem firstSame_congr {g0 : Graph R} {t t' : R} (h : Same g0 t t') : ∀ (l : List R), firstSame g0 t l = firstSame g0 t' l
  | [] => rfl
  | y :: l => by
    by_cases hy : Same g0 y t
    · rw [firstSame_cons_pos hy, firstSame_cons_pos (hy.trans h)]
    · rw [firstSame_cons_neg hy, firstSame_cons_neg (fun h' => hy (h'.trans h.symm)), firstSame_congr h l]

/-- Leaving out types with a different hash does not matter if types with the same meaning have the same hash. -/
theorem firstSame_filter {g0 : Graph R} {t : R} (h : Nat) : ∀ (l : List (Nat × R)), (∀ e ∈ l, Same g0 e.2 t → e.1 = h) →
    firstSame g0 t ((l.filter (fun e => e.1 = h)).map (·.2)) = firstSame g0 t (l.map (·.2))
  | [], _ => rfl
  | e :: l, hl => by
    have ih := firstSame_filter h l (fun e he => hl e (List.mem_cons_of_mem _ he))
    by_cases he : e.1 = h
    · simp only [List.filter, he, decide_true, List.map_cons]
      by_cases hs : Same g0 e.2 t
      · rw [firstSame_cons_pos hs, firstSame_cons_pos hs]
      · rw [firstSame_cons_neg hs, firstSame_cons_neg hs, ih]
    · simp only [List.filter, he, decide_false, List.map_cons]
      rw [firstSame_cons_neg (fun hs => he (hl e (List.mem_cons_self ..) hs)), ih]

theorem findCandidate_spec {g0 : Graph R} {N k : Nat} (ha : Acyclic g0 N) (hk : N ≤ k) (t : R) : ∀ (l : List R) (d : Deduper R), DInv g0 d →
    ∃ c, findCandidate k t l d = some (.ok (firstSame g0 t l), { d with eqCache := c }) ∧ CacheOk g0 c
  | [], d, hi => ⟨d.eqCache, rfl, hi.cache⟩
  | x :: l, d, hi => by
    obtain ⟨r, c, h1, h2, h3⟩ := typesEq_correct (hi.graph.acyclic ha) hk x t d.eqCache ((hi.graph.cacheOk _).2 hi.cache)
    rw [hi.graph.same] at h3
    rw [hi.graph.cacheOk] at h2
    unfold findCandidate
    rw [h1]
    rcases h3 with ⟨rfl, h3⟩ | ⟨rfl, h3⟩
    · exact ⟨c, by rw [firstSame_cons_pos h3], h2⟩
    · obtain ⟨c', e1, e2⟩ := findCandidate_spec ha hk t l { d with eqCache := c } ⟨hi.graph, hi.done, h2⟩
      exact ⟨c', by rw [firstSame_cons_neg h3]; exact e1, e2⟩

/-- Types that say the same up to the size and signedness of enums agree on these, too. -/
def Consistent (g : Graph R) : Prop := ∀ x y, brief (g x) = brief (g y) → looks (g x) = looks (g y)

omit [DecidableEq R] in
theorem consistent_of_enums {g : Graph R} (h : EnumsAgree g) : Consistent g := by
  intro x y hb
  have he := h x y
  cases hx : g x <;> cases hy : g y <;> rw [hx, hy] at hb he <;> simp only [brief, Node.map, reduceCtorEq] at hb <;> simp only [looks, Node.map] <;> try exact hb
  injection hb with h1 _ _ h4
  subst h1; subst h4
  obtain ⟨rfl, rfl⟩ := he _ _ _ _ _ _ rfl rfl
  rfl

omit [DecidableEq R] in
theorem isPtr_of_brief {a b : Node R} (h : brief a = brief b) : (match a with | .ptr _ => (2 : Int) | _ => 1) = (match b with | .ptr _ => (2 : Int) | _ => 1) := by
  cases a <;> cases b <;> simp only [brief, Node.map, reduceCtorEq] at h <;> rfl

omit [DecidableEq R] in
theorem map_eq_zip {α β γ : Type} {f : α → γ} {f' : β → γ} : ∀ {l : List α} {l' : List β}, l.map f = l'.map f' → ∀ p ∈ l.zip l', f p.1 = f' p.2
  | [], _, _, p, hp => by simp at hp
  | _ :: _, [], _, p, hp => by simp at hp
  | a :: l, b :: l', h, p, hp => by
    simp only [List.map_cons, List.cons.injEq] at h
    simp only [List.zip_cons_cons, List.mem_cons] at hp
    rcases hp with rfl | hp
    · exact h.1
    · exact map_eq_zip h.2 p hp

omit [DecidableEq R] in
theorem map_eq_of_zip2 {α β γ : Type} {f : α → γ} {f' : β → γ} : ∀ {l : List α} {l' : List β}, l.length = l'.length → (∀ p ∈ l.zip l', f p.1 = f' p.2) →
    l.map f = l'.map f'
  | [], [], _, _ => rfl
  | [], _ :: _, h, _ => by simp at h
  | _ :: _, [], h, _ => by simp at h
  | a :: l, b :: l', h, hz => by
    simp only [List.zip_cons_cons, List.mem_cons, forall_eq_or_imp] at hz
    simp only [List.map_cons, hz.1, map_eq_of_zip2 (by simpa using h) hz.2]

omit [DecidableEq R] in
theorem hashP_congr (g g' : Graph R) (H : List HItem → Nat) (hl : ∀ x y, brief (g x) = brief (g' y) → looks (g x) = looks (g' y)) :
    ∀ (n : Nat) (r r' : R) (b : Int), unfold brief g n r = unfold brief g' n r' → hashP g H n r b = hashP g' H n r' b
  | 0, _, _, _, _ => rfl
  | n + 1, r, r', b, h => by
    simp only [unfold, Tree.node.injEq] at h
    unfold hashP
    by_cases hb : b = 0
    · rw [if_pos hb, if_pos hb]
    · rw [if_neg hb, if_neg hb, hl r r' h.1]
      have hz := map_eq_zip h.2
      have : (subs (g r)).map (fun t => hashP g H n t (budgetOf g (g r) b)) = (subs (g' r')).map (fun t => hashP g' H n t (budgetOf g' (g' r') b)) := by
        refine map_eq_of_zip2 (brief_subs_length h.1) (fun p hp => ?_)
        have hp' := hz p hp
        cases n with
        | zero => rfl
        | succ n =>
          have hbud : budgetOf g (g r) b = budgetOf g' (g' r') b := by
            have h1 := h.1
            cases hg : g r <;> cases hg' : g' r' <;> rw [hg, hg'] at h1 <;> simp only [brief, Node.map, reduceCtorEq] at h1 <;> simp only [budgetOf]
            case ptr.ptr t t' =>
              have h2 := h.2
              rw [hg, hg'] at h2
              simp only [subs, List.map_cons, List.map_nil, List.cons.injEq, and_true, unfold, Tree.node.injEq] at h2
              have h3 := h2.1
              unfold ptrBudget
              cases ht : g t <;> cases ht' : g' t' <;> rw [ht, ht'] at h3 <;> simp only [brief, Node.map, reduceCtorEq] at h3 <;> rfl
          rw [hbud]
          exact hashP_congr g g' H hl (n + 1) p.1 p.2 _ hp'
      rw [this]

omit [DecidableEq R] in
theorem looks_setKid (i : Nat) (c : R) (n : Node R) : looks (n.setKid i c) = looks n := by
  cases n <;> simp only [Node.setKid, looks, Node.map]
  case struct => rw [map_modify_same]; intro a; rfl
  case union => rw [map_modify_same]; intro a; rfl
  case datasec => rw [map_modify_same]; intro a; rfl
  case funcProto =>
    cases i
    · rfl
    · simp only [looks, Node.map]; rw [map_modify_same]; intro a; rfl

/-- What also holds of a deduper that started with a consistent graph. -/
structure CInv (g0 : Graph R) (H : List HItem → Nat) (N : Nat) (d : Deduper R) : Prop where
  looks : ∀ x, looks (d.graph x) = looks (g0 x)
  hcache : HCacheOk g0 H N d.hashCache
  hashed : ∀ e ∈ d.hashed, e.1 = hashP g0 H N e.2 (-1)
  done : ∀ e ∈ d.done, firstSame g0 e.1 (d.hashed.map (·.2)) = some e.2

omit [DecidableEq R] in
theorem hashP_now {g0 : Graph R} (hcons : Consistent g0) {d : Deduper R} (hi : SameGraph g0 d.graph) (hlk : ∀ x, looks (d.graph x) = looks (g0 x))
    (H : List HItem → Nat) (N : Nat) (r : R) (b : Int) : hashP d.graph H N r b = hashP g0 H N r b :=
  hashP_congr d.graph g0 H (fun x y h => by rw [hlk]; rw [hi.brief_eq] at h; exact hcons x y h) N r r b (hi N r)

/-- `hashInsert` ends without error with a type that means the same. -/
theorem hashInsert_spec {g0 : Graph R} {N k : Nat} (ha : Acyclic g0 N) (hk : N ≤ k) (H : List HItem → Nat) (t : R) (d : Deduper R) (hi : DInv g0 d) :
    ∃ c d', hashInsert H k t d = some (.ok c, d') ∧ DInv g0 d' ∧ Same g0 t c ∧ d'.graph = d.graph ∧ (∃ x, d'.hashed = d.hashed ++ x) ∧
      (Consistent g0 → CInv g0 H N d → CInv g0 H N d' ∧ firstSame g0 t (d'.hashed.map (·.2)) = some c) := by
  unfold hashInsert
  cases hl : d.done.lookup t with
  | some c => exact ⟨c, d, rfl, hi, hi.done _ (lookup_mem_pair hl), rfl, ⟨[], by simp⟩, fun _ hc => ⟨hc, hc.done _ (lookup_mem_pair hl)⟩⟩
  | none =>
    have ha' := hi.graph.acyclic ha
    obtain ⟨h, hc, h1⟩ := hash_total d.graph ha'.real H N k t (-1) d.hashCache (ha'.depth t) hk
    have hval : Consistent g0 → CInv g0 H N d → h = hashP g0 H N t (-1) ∧ HCacheOk g0 H N hc ∧
        firstSame g0 t ((d.hashed.filter (fun e => e.1 = h)).map (·.2)) = firstSame g0 t (d.hashed.map (·.2)) := by
      intro hcons ci
      have e0 : HCacheOk d.graph H N d.hashCache := fun e he => by rw [hashP_now hcons hi.graph ci.looks]; exact ci.hcache e he
      obtain ⟨c', e1, e2⟩ := hash_eq d.graph ha'.real H N N k t (-1) d.hashCache (ha'.depth t) hk (Nat.le_refl _) e0
      rw [h1] at e1
      simp only [Option.some.injEq, Prod.mk.injEq] at e1
      rw [hashP_now hcons hi.graph ci.looks] at e1
      have hh := e1.1
      refine ⟨hh, ?_, ?_⟩
      · rw [e1.2]; intro e he; rw [← hashP_now hcons hi.graph ci.looks]; exact e2 e he
      · refine firstSame_filter h _ (fun e he hs => ?_)
        rw [ci.hashed e he, hh]
        exact hashP_congr g0 g0 H hcons N e.2 t (-1) (hs N)
    simp only
    rw [h1]
    simp only
    obtain ⟨c, e1, e2⟩ := findCandidate_spec ha hk t ((d.hashed.filter (fun e => e.1 = h)).map (·.2)) { d with hashCache := hc } ⟨hi.graph, hi.done, hi.cache⟩
    rw [e1]
    cases ho : firstSame g0 t ((d.hashed.filter (fun e => e.1 = h)).map (·.2)) with
    | some x =>
      have f2 := firstSame_same ho
      refine ⟨x, _, rfl, ⟨hi.graph, ?_, e2⟩, f2.symm, rfl, ⟨[], by simp⟩, ?_⟩
      · intro e he
        rcases List.mem_cons.1 he with rfl | he
        · exact f2.symm
        · exact hi.done e he
      · intro hcons ci
        obtain ⟨v1, v2, v3⟩ := hval hcons ci
        rw [v3] at ho
        refine ⟨⟨ci.looks, v2, ci.hashed, ?_⟩, ho⟩
        intro e he
        rcases List.mem_cons.1 he with rfl | he
        · exact ho
        · exact ci.done e he
    | none =>
      refine ⟨t, _, rfl, ⟨hi.graph, hi.done, e2⟩, Same.refl _ _, rfl, ⟨_, rfl⟩, ?_⟩
      intro hcons ci
      obtain ⟨v1, v2, v3⟩ := hval hcons ci
      rw [v3] at ho
      refine ⟨⟨ci.looks, v2, ?_, ?_⟩, ?_⟩
      · intro e he
        rcases List.mem_append.1 he with he | he
        · exact ci.hashed e he
        · simp only [List.mem_cons, List.not_mem_nil, or_false] at he; subst he; exact v1
      · intro e he
        simp only [List.map_append]
        exact firstSame_append _ (ci.done e he)
      · simp only [List.map_append, List.map_cons, List.map_nil]
        rw [firstSame_none_append _ ho, firstSame_cons_pos (Same.refl _ _)]

/-- One step keeps the invariants. -/
def Step (g0 : Graph R) (H : List HItem → Nat) (N : Nat) (d d' : Deduper R) : Prop :=
  DInv g0 d' ∧ (∃ x, d'.hashed = d.hashed ++ x) ∧ (Consistent g0 → CInv g0 H N d → CInv g0 H N d')

omit [DecidableEq R] in
theorem Step.trans {g0 : Graph R} {H : List HItem → Nat} {N : Nat} {d d' d'' : Deduper R} (h : Step g0 H N d d') (h' : Step g0 H N d' d'') : Step g0 H N d d'' := by
  obtain ⟨a, ⟨x, hx⟩, b⟩ := h
  obtain ⟨a', ⟨y, hy⟩, b'⟩ := h'
  exact ⟨a', ⟨x ++ y, by rw [hy, hx, List.append_assoc]⟩, fun hc ci => b' hc (b hc ci)⟩

theorem runAct_spec {g0 : Graph R} {N k : Nat} (ha : Acyclic g0 N) (hk : N ≤ k) (H : List HItem → Nat) (a : Act R) (d : Deduper R) (hi : DInv g0 d) :
    ∃ d', runAct H k d a = some (.ok (), d') ∧ Step g0 H N d d' := by
  cases a with
  | temp t =>
    obtain ⟨c, d', h1, h2, _, _, h5, h6⟩ := hashInsert_spec ha hk H t d hi
    exact ⟨d', by simp only [runAct, h1], h2, h5, fun hc ci => (h6 hc ci).1⟩
  | kid r i =>
    cases hg : (d.graph r).kids[i]? with
    | none => exact ⟨d, by simp only [runAct, hg], hi, ⟨[], by simp⟩, fun _ h => h⟩
    | some t =>
      obtain ⟨c, d', h1, h2, h3, h4, h5, h6⟩ := hashInsert_spec ha hk H t d hi
      refine ⟨{ d' with graph := fun x => if x = r then (d'.graph r).setKid i c else d'.graph x }, by simp only [runAct, hg, h1], ⟨?_, h2.done, h2.cache⟩, h5, ?_⟩
      · intro n x
        rw [unfold_setKid d'.graph r i t c (by rw [h4]; exact hg) ((h2.graph.same _ _).2 h3) n x]
        exact h2.graph n x
      · intro hcons ci
        have ci' := (h6 hcons ci).1
        refine ⟨?_, ci'.hcache, ci'.hashed, ci'.done⟩
        intro x
        by_cases hx : x = r
        · subst hx; simp only [if_true, looks_setKid]; exact ci'.looks x
        · simp only [if_neg hx]; exact ci'.looks x

theorem runActs_spec {g0 : Graph R} {N k : Nat} (ha : Acyclic g0 N) (hk : N ≤ k) (H : List HItem → Nat) : ∀ (l : List (Act R)) (d : Deduper R), DInv g0 d →
    ∃ d', runActs H k l d = some (.ok (), d') ∧ Step g0 H N d d'
  | [], d, hi => ⟨d, rfl, hi, ⟨[], by simp⟩, fun _ h => h⟩
  | a :: l, d, hi => by
    obtain ⟨d1, h1, h2⟩ := runAct_spec ha hk H a d hi
    obtain ⟨d2, h3, h4⟩ := runActs_spec ha hk H l d1 h2.1
    exact ⟨d2, by simp only [runActs, h1]; exact h3, h2.trans h4⟩

/-! ## the traversal -/

theorem dedupVisitList_total {α : Type} [DecidableEq α] {v : α → List α → Option (List α × List α)} : ∀ (l : List α) (vis : List α),
    (∀ x ∈ l, ∀ vis, ∃ o, v x vis = some o) → ∃ o, visitList v l vis = some o
  | [], vis, _ => ⟨_, rfl⟩
  | x :: l, vis, h => by
    obtain ⟨⟨o, vis1⟩, h1⟩ := h x (List.mem_cons_self ..) vis
    obtain ⟨⟨os, vis2⟩, h2⟩ := dedupVisitList_total l vis1 (fun x hx => h x (List.mem_cons_of_mem _ hx))
    exact ⟨(o ++ os, vis2), by simp only [visitList, h1, h2]⟩

omit [DecidableEq R] in
theorem mem_memberRefs {r t : R} {ms : List (Member R)} (h : TRef.obj t ∈ memberRefs r ms) : t ∈ ms.map (·.type) := by
  unfold memberRefs at h
  obtain ⟨l, hl, ht⟩ := List.mem_flatten.1 h
  obtain ⟨i, hi, rfl⟩ := List.mem_mapIdx.1 hl
  rcases List.mem_cons.1 ht with ht | ht
  · cases ht; exact List.mem_map.2 ⟨_, List.getElem_mem hi, rfl⟩
  · unfold tagRefs at ht
    obtain ⟨j, hj, he⟩ := List.mem_mapIdx.1 ht
    cases he

omit [DecidableEq R] in
theorem not_mem_tagRefs {r t : R} {i : Int} {ts : List Bytes} : TRef.obj t ∉ tagRefs r i ts := by
  intro h
  unfold tagRefs at h
  obtain ⟨j, hj, he⟩ := List.mem_mapIdx.1 h
  cases he

omit [DecidableEq R] in
theorem not_mem_paramTagRefs {r t : R} {n : Nat} {pts : List (List Bytes)} : TRef.obj t ∉ paramTagRefs r n pts := by
  intro h
  unfold paramTagRefs at h
  obtain ⟨l, hl, ht⟩ := List.mem_flatten.1 h
  obtain ⟨i, hi, rfl⟩ := List.mem_mapIdx.1 hl
  exact not_mem_tagRefs ht

omit [DecidableEq R] in
theorem mem_tagRefs {r p : R} {i j : Int} {v : Bytes} {k : Nat} {ts : List Bytes} (h : TRef.tag p v j k ∈ tagRefs r i ts) : p = r := by
  unfold tagRefs at h
  obtain ⟨j, hj, he⟩ := List.mem_mapIdx.1 h
  cases he; rfl

omit [DecidableEq R] in
theorem tag_childrenObj {g : Graph R} {r p : R} {v : Bytes} {i : Int} {k : Nat} (h : TRef.tag p v i k ∈ childrenObj g r) :
    p = r ∧ ∀ q w j, g r ≠ .declTag q w j := by
  unfold childrenObj at h
  have hmem : ∀ ms : List (Member R), TRef.tag p v i k ∈ memberRefs r ms → p = r := by
    intro ms h
    obtain ⟨l, hl, ht⟩ := List.mem_flatten.1 h
    obtain ⟨i, hi, rfl⟩ := List.mem_mapIdx.1 hl
    rcases List.mem_cons.1 ht with ht | ht
    · cases ht
    · exact mem_tagRefs ht
  cases hg : g r <;> rw [hg] at h <;> simp only [List.mem_append, List.mem_cons, List.not_mem_nil, or_false, List.mem_map, reduceCtorEq, false_or, and_false, exists_false] at h
  case struct =>
    refine ⟨?_, (by intro q w j h; cases h)⟩
    rcases h with h | h
    · exact hmem _ h
    · exact mem_tagRefs h
  case union =>
    refine ⟨?_, (by intro q w j h; cases h)⟩
    rcases h with h | h
    · exact hmem _ h
    · exact mem_tagRefs h
  case func =>
    refine ⟨?_, (by intro q w j h; cases h)⟩
    rcases h with h | h
    · obtain ⟨l, hl, ht⟩ := List.mem_flatten.1 h
      obtain ⟨i, hi, rfl⟩ := List.mem_mapIdx.1 hl
      exact mem_tagRefs ht
    · exact mem_tagRefs h
  all_goals exact ⟨mem_tagRefs h, (by intro q w j h; cases h)⟩

omit [DecidableEq R] in
theorem mem_childrenObj {g : Graph R} {r t : R} (h : TRef.obj t ∈ childrenObj g r) : t ∈ subs (g r) := by
  unfold childrenObj at h
  cases hg : g r <;> rw [hg] at h <;> simp only [List.mem_append, List.mem_cons, not_mem_tagRefs, not_mem_paramTagRefs, List.not_mem_nil, or_false, List.mem_map, TRef.obj.injEq] at h <;>
    simp only [subs, List.mem_cons, List.not_mem_nil, or_false]
  case struct => exact mem_memberRefs h
  case union => exact mem_memberRefs h
  case funcProto =>
    rcases h with h | ⟨p, hp, h⟩
    · exact .inl h
    · exact .inr (List.mem_map.2 ⟨p, hp, h⟩)
  case datasec =>
    obtain ⟨p, hp, h⟩ := h
    exact List.mem_map.2 ⟨p, hp, h⟩
  all_goals exact h

omit [DecidableEq R] in
theorem childAddrs_tag (alloc : R → Bytes → Int → Nat → R) (g : Graph R) (r : R) {v : Bytes} {i : Int} (h : brief (g r) = .declTag () v i) :
    childAddrs alloc g r = [] := by
  unfold childAddrs childrenObj
  cases hg : g r <;> rw [hg] at h <;> simp only [brief, Node.map, reduceCtorEq] at h
  rfl

theorem dedupVisit_total (alloc : R → Bytes → Int → Nat → R) (g : Graph R) (hal : ∀ p v i k, (∀ q w j, g p ≠ .declTag q w j) → brief (g (alloc p v i k)) = .declTag () v i) :
    ∀ (n k : Nat) (r : R) (vis : List R), Depth g n r → n < k → ∃ o, visit (childAddrs alloc g) k r vis = some o
  | 0, _, _, _, h, _ => h.elim
  | n + 1, 0, _, _, _, hk => by omega
  | n + 1, k + 1, r, vis, hd, hk => by
    unfold visit
    by_cases hv : r ∈ vis
    · rw [if_pos hv]; exact ⟨_, rfl⟩
    · rw [if_neg hv]
      obtain ⟨o, ho⟩ := dedupVisitList_total (v := visit (childAddrs alloc g) k) (childAddrs alloc g r) (r :: vis) (fun x hx vis => by
        unfold childAddrs at hx
        obtain ⟨q, hq, he⟩ := List.mem_filterMap.1 hx
        cases q with
        | obj t =>
          simp only [Option.some.injEq] at he
          subst he
          have := mem_childrenObj hq
          exact dedupVisit_total alloc g hal n k t vis (hd t this) (by omega)
        | tag p v i j =>
          simp only [Option.some.injEq] at he
          subst he
          obtain ⟨rfl, hnt⟩ := tag_childrenObj hq
          obtain ⟨k, rfl⟩ : ∃ k', k = k' + 1 := ⟨k - 1, by omega⟩
          unfold visit
          by_cases hv' : alloc p v i j ∈ vis
          · rw [if_pos hv']; exact ⟨_, rfl⟩
          · rw [if_neg hv', childAddrs_tag alloc g _ (hal p v i j hnt)]; exact ⟨_, rfl⟩
        | ph t => cases he)
      rcases o with ⟨o, vis'⟩
      rw [ho]
      exact ⟨_, rfl⟩

theorem deduplicate_spec {g0 : Graph R} {N k : Nat} (ha : Acyclic g0 N) (hk : N < k) (H : List HItem → Nat) (alloc : R → Bytes → Int → Nat → R)
    (hal : Allocates alloc g0) (t : R) (d : Deduper R) (hi : DInv g0 d) :
    ∃ c d', deduplicate H alloc k t d = some (.ok c, d') ∧ Step g0 H N d d' ∧ Same g0 t c ∧
      (Consistent g0 → CInv g0 H N d → firstSame g0 t (d'.hashed.map (·.2)) = some c) := by
  unfold deduplicate
  cases hl : d.done.lookup t with
  | some c => exact ⟨c, d, rfl, ⟨hi, ⟨[], by simp⟩, fun _ h => h⟩, hi.done _ (lookup_mem_pair hl), fun _ hc => hc.done _ (lookup_mem_pair hl)⟩
  | none =>
    have ha' := hi.graph.acyclic ha
    obtain ⟨⟨out, vis⟩, hv⟩ := dedupVisit_total alloc d.graph (fun p v i j hp => by
      rw [hi.graph.brief_eq, hal p v i j]
      · rfl
      · intro q w l hq
        have := hi.graph.brief_eq p
        rw [hq] at this
        revert hp this
        cases d.graph p <;> simp [brief, Node.map]) N k t d.visited (ha'.depth t) hk
    simp only
    rw [hv]
    simp only
    obtain ⟨d1, h1, h2⟩ := runActs_spec ha (by omega : N ≤ k) H (out.flatMap fun r => actsOf alloc r 0 (childrenObj d.graph r)) { d with visited := vis } ⟨hi.graph, hi.done, hi.cache⟩
    rw [h1]
    simp only
    obtain ⟨c, d2, e1, e2, e3, e4, e5, e6⟩ := hashInsert_spec ha (by omega : N ≤ k) H t d1 h2.1
    rw [e1]
    have hci : Consistent g0 → CInv g0 H N d → CInv g0 H N d1 := fun hc ci => h2.2.2 hc ⟨ci.looks, ci.hcache, ci.hashed, ci.done⟩
    refine ⟨c, d2, rfl, ⟨e2, ?_, fun hc ci => (e6 hc (hci hc ci)).1⟩, e3, fun hc ci => (e6 hc (hci hc ci)).2⟩
    obtain ⟨x, hx⟩ := h2.2.1
    obtain ⟨y, hy⟩ := e5
    exact ⟨x ++ y, by rw [hy, hx]; simp⟩

theorem dedupAll_spec {g0 : Graph R} {N k : Nat} (ha : Acyclic g0 N) (hk : N < k) (H : List HItem → Nat) (alloc : R → Bytes → Int → Nat → R)
    (hal : Allocates alloc g0) : ∀ (ts : List R) (d : Deduper R), DInv g0 d →
    ∃ cs d', dedupAll H alloc k ts d = some (.ok cs, d') ∧ Step g0 H N d d' ∧ cs.length = ts.length ∧ (∀ p ∈ ts.zip cs, Same g0 p.1 p.2) ∧
      (Consistent g0 → CInv g0 H N d → ∀ p ∈ ts.zip cs, firstSame g0 p.1 (d'.hashed.map (·.2)) = some p.2)
  | [], d, hi => ⟨[], d, rfl, ⟨hi, ⟨[], by simp⟩, fun _ h => h⟩, rfl, (by intro p hp; cases hp), (by intro _ _ p hp; cases hp)⟩
  | t :: ts, d, hi => by
    obtain ⟨c, d1, h1, h2, h3, h4⟩ := deduplicate_spec ha hk H alloc hal t d hi
    obtain ⟨cs, d2, e1, e2, e3, e4, e5⟩ := dedupAll_spec ha hk H alloc hal ts d1 h2.1
    refine ⟨c :: cs, d2, by simp only [dedupAll, h1, e1], h2.trans e2, by simp [e3], ?_, ?_⟩
    · intro p hp
      rcases List.mem_cons.1 hp with rfl | hp
      · exact h3
      · exact e4 p hp
    · intro hc ci p hp
      rcases List.mem_cons.1 hp with rfl | hp
      · obtain ⟨x, hx⟩ := e2.2.1
        rw [hx, List.map_append]
        exact firstSame_append _ (h4 hc ci)
      · exact e5 hc (h2.2.2 hc ci) p hp

/-- **C37** (acyclic type graphs, and up to the fields `brief` leaves out): however many types are added, with
whatever hash function, deduplication succeeds; each type is replaced by one that cannot be told apart from it, and no
type of the graph that is changed along the way changes its meaning. Missing: recursive types, and the fields that `brief` leaves out; for
these the property is false (`dedup_merges_bitfields`, `dedup_merges_linkage`, `dedup_merges_enums`, `dedup_merges_recursive`). -/
theorem dedup_preserves_partial {g0 : Graph R} {N k : Nat} (ha : Acyclic g0 N) (hk : N < k) (H : List HItem → Nat) (alloc : R → Bytes → Int → Nat → R)
    (hal : Allocates alloc g0) (ts : List R) :
    ∃ cs d', dedupAll H alloc k ts { graph := g0 } = some (.ok cs, d') ∧ cs.length = ts.length ∧
      (∀ p ∈ ts.zip cs, SameType brief g0 p.1 p.2) ∧
      (∀ n x, unfold brief d'.graph n x = unfold brief g0 n x) := by
  obtain ⟨cs, d', h1, h2, h3, h4, _⟩ := dedupAll_spec ha hk H alloc hal ts { graph := g0 }
    ⟨fun _ _ => rfl, (by intro e he; cases he), (by intro e he; cases he)⟩
  exact ⟨cs, d', h1, h3, h4, h2.1.graph⟩

/-- **C37**, the other direction: types that mean the same are replaced by one and the same type, provided that enums with the same name and
values agree on size and signedness. -/
theorem dedup_complete {g0 : Graph R} {N k : Nat} (ha : Acyclic g0 N) (hk : N < k) (H : List HItem → Nat) (alloc : R → Bytes → Int → Nat → R)
    (hal : Allocates alloc g0) (hen : EnumsAgree g0) (ts : List R) {cs : List R} {d' : Deduper R}
    (h : dedupAll H alloc k ts { graph := g0 } = some (.ok cs, d')) :
    ∀ p ∈ ts.zip cs, ∀ q ∈ ts.zip cs, SameType brief g0 p.1 q.1 ↔ p.2 = q.2 := by
  obtain ⟨cs', d'', h1, h2, h3, h4, h5⟩ := dedupAll_spec ha hk H alloc hal ts { graph := g0 }
    ⟨fun _ _ => rfl, (by intro e he; cases he), (by intro e he; cases he)⟩
  rw [h] at h1
  simp only [Option.some.injEq, Prod.mk.injEq, Except.ok.injEq] at h1
  obtain ⟨rfl, rfl⟩ := h1
  have h6 := h5 (consistent_of_enums hen) ⟨fun _ => rfl, (by intro e he; cases he), (by intro e he; cases he), (by intro e he; cases he)⟩
  intro p hp q hq
  constructor
  · intro hs
    have a := h6 p hp
    have b := h6 q hq
    rw [firstSame_congr hs] at a
    rw [a] at b
    exact Option.some.inj b
  · intro he
    have a := h4 p hp
    have b := h4 q hq
    rw [he] at a
    exact Same.trans a (Same.symm b)

end Ebpf.Btf
