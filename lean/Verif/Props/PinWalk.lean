import Verif.Spec.PinWalk
/-!
# Proofs about walks over pins (C105)
-/
namespace Ebpf.PinWalk

open Spec

/-! ## The walk as a loop over a list -/

/-- What the walk comes across besides readable directories. -/
inductive Item where
  | file (f : File)
  | unreadable

mutual
/-- The items in the order of the walk. -/
def items : Node → Path → List (Path × Item)
  | .file f, p => [(p, .file f)]
  | .dir r es, p =>
    if !r then [(p, .unreadable)]
    else ((itemsE es p).mergeSort (fun a b => decide (a.1 ≤ b.1))).flatMap (·.2)
/-- … of the entries. -/
def itemsE : Entries → Path → List (Name × List (Path × Item))
  | .nil, _ => []
  | .cons x n es, p => (x, items n (p ++ [x])) :: itemsE es p
end

/-- Visit an item. -/
def visitItem (cpus : Bool) (body : List Ev → Reply) (x : Path × Item) (s : St) : St × Res :=
  match x.2 with
  | .file f => visit cpus body x.1 f s
  | .unreadable => (s, .err (.entry x.1))

/-- Visit items until something is returned. -/
def runItems (cpus : Bool) (body : List Ev → Reply) : List (Path × Item) → St → St × Res
  | [], s => (s, .nil)
  | x :: xs, s =>
    match visitItem cpus body x s with
    | (s, .nil) => runItems cpus body xs s
    | (s, r) => (s, r)

/-- Go on unless something was returned. -/
def andThen (x : St × Res) (f : St → St × Res) : St × Res :=
  match x with
  | (s, .nil) => f s
  | (s, r) => (s, r)

theorem runItems_cons (cpus : Bool) (body : List Ev → Reply) (x : Path × Item) (xs : List (Path × Item)) (s : St) :
    runItems cpus body (x :: xs) s = andThen (visitItem cpus body x s) (runItems cpus body xs) := by
  rw [runItems]; rfl

theorem andThen_assoc (x : St × Res) (f g : St → St × Res) : andThen (andThen x f) g = andThen x (fun s => andThen (f s) g) := by
  obtain ⟨s, r⟩ := x
  cases r <;> rfl

theorem andThen_nil (x : St × Res) : andThen x (fun s => (s, .nil)) = x := by
  obtain ⟨s, r⟩ := x
  cases r <;> rfl

theorem runItems_append (cpus : Bool) (body : List Ev → Reply) (xs ys : List (Path × Item)) (s : St) :
    runItems cpus body (xs ++ ys) s = andThen (runItems cpus body xs s) (runItems cpus body ys) := by
  induction xs generalizing s with
  | nil => rfl
  | cons x xs ih =>
    rw [List.cons_append, runItems_cons, runItems_cons, andThen_assoc]
    congr 1
    funext s
    exact ih s

theorem runAll_map (cpus : Bool) (body : List Ev → Reply) (xs : List (Name × List (Path × Item))) (s : St) :
    runAll (xs.map (fun x => (x.1, runItems cpus body x.2))) s = runItems cpus body (xs.flatMap (·.2)) s := by
  induction xs generalizing s with
  | nil => rfl
  | cons x xs ih =>
    rw [List.flatMap_cons, runItems_append, List.map_cons]
    show andThen (runItems cpus body x.2 s) (runAll _) = _
    congr 1
    funext s
    exact ih s

mutual
theorem walkNode_eq (cpus : Bool) (body : List Ev → Reply) : (n : Node) → (p : Path) → walkNode cpus body n p = runItems cpus body (items n p)
  | .file f, p => by
    funext s
    rw [walkNode, items, runItems_cons]
    exact (andThen_nil _).symm
  | .dir r es, p => by
    funext s
    rw [walkNode, items]
    cases r with
    | false => rfl
    | true =>
      simp only [Bool.not_true, Bool.false_eq_true, if_false]
      rw [walkEntries_eq cpus body es p, ← List.map_mergeSort (r := fun a b => decide (a.1 ≤ b.1)), runAll_map]
      intro a _ b _
      rfl
theorem walkEntries_eq (cpus : Bool) (body : List Ev → Reply) : (es : Entries) → (p : Path) →
    walkEntries cpus body es p = (itemsE es p).map (fun x => (x.1, runItems cpus body x.2))
  | .nil, p => rfl
  | .cons x n es, p => by
    rw [walkEntries, itemsE, List.map_cons, walkNode_eq cpus body n (p ++ [x]), walkEntries_eq cpus body es p]
end

/-! ## The items and the tree -/

mutual
theorem items_below : (n : Node) → (p : Path) → ∀ x ∈ items n p, ∃ q, x.1 = p ++ q
  | .file f, p, x, hx => by
    rw [items, List.mem_singleton] at hx
    exact ⟨[], by rw [hx, List.append_nil]⟩
  | .dir r es, p, x, hx => by
    rw [items] at hx
    cases r with
    | false =>
      rw [if_pos (by decide), List.mem_singleton] at hx
      exact ⟨[], by rw [hx, List.append_nil]⟩
    | true =>
      rw [if_neg (by decide), List.mem_flatMap] at hx
      obtain ⟨e, he, hx⟩ := hx
      rw [List.mem_mergeSort] at he
      obtain ⟨q, hq⟩ := itemsE_below es p e he x hx
      exact ⟨_, hq⟩
theorem itemsE_below : (es : Entries) → (p : Path) → ∀ e ∈ itemsE es p, ∀ x ∈ e.2, ∃ q, x.1 = p ++ e.1 :: q
  | .nil, p, e, he, x, hx => by rw [itemsE] at he; cases he
  | .cons y n es, p, e, he, x, hx => by
    rw [itemsE] at he
    cases he with
    | head =>
      obtain ⟨q, hq⟩ := items_below n (p ++ [y]) x hx
      exact ⟨q, by rw [hq, List.append_assoc]; rfl⟩
    | tail _ he => exact itemsE_below es p e he x hx
end

theorem itemsE_names (es : Entries) (p : Path) : (itemsE es p).map (·.1) = names es := by
  induction es using Entries.rec (motive_1 := fun _ => True) with
  | file => trivial
  | dir => trivial
  | nil => rfl
  | cons x n es _ ih => rw [itemsE, names, List.map_cons, ih]

mutual
theorem items_sorted : (n : Node) → (p : Path) → Proper n → (items n p).Pairwise (fun a b => Before a.1 b.1)
  | .file f, p, _ => by rw [items]; exact List.pairwise_singleton _ _
  | .dir r es, p, h => by
    rw [items]
    cases r with
    | false => exact List.pairwise_singleton _ _
    | true =>
      rw [if_neg (by decide)]
      cases h with
      | dir _ _ hn he =>
        rw [List.flatMap, List.pairwise_flatten]
        refine ⟨?_, ?_⟩
        · intro l hl
          obtain ⟨e, he', rfl⟩ := List.mem_map.mp hl
          rw [List.mem_mergeSort] at he'
          exact itemsE_sorted es p he e he'
        · rw [List.pairwise_map]
          have h1 := List.pairwise_mergeSort (le := fun (a b : Name × List (Path × Item)) => decide (a.1 ≤ b.1))
            (fun a b c hab hbc => decide_eq_true (List.le_trans (of_decide_eq_true hab) (of_decide_eq_true hbc)))
            (fun a b => by
              rcases List.le_total a.1 b.1 with h | h
              · simp [h]
              · simp [h]) (itemsE es p)
          have h2 : ((itemsE es p).mergeSort (fun a b => decide (a.1 ≤ b.1))).Pairwise (fun a b => a.1 ≠ b.1) := by
            refine List.pairwise_map.mp (?_ : (List.map (fun (x : Name × List (Path × Item)) => x.1) _).Nodup)
            exact ((List.mergeSort_perm _ _).map _).nodup_iff.mpr (by rw [itemsE_names]; exact hn)
          refine (List.pairwise_and_iff.mpr ⟨h1, h2⟩).imp_of_mem ?_
          intro a b ha hb hab x hx y hy
          rw [List.mem_mergeSort] at ha hb
          obtain ⟨q, hq⟩ := itemsE_below es p a ha x hx
          obtain ⟨q', hq'⟩ := itemsE_below es p b hb y hy
          refine ⟨p, a.1, b.1, q, q', hq, hq', ?_⟩
          rcases List.le_total b.1 a.1 with h | h
          · exact absurd (List.le_antisymm (of_decide_eq_true hab.1) h) hab.2
          · exact Decidable.byContradiction (fun hlt => hab.2 (List.le_antisymm h (List.not_lt.mp hlt)))
theorem itemsE_sorted : (es : Entries) → (p : Path) → ProperEntries es → ∀ e ∈ itemsE es p, e.2.Pairwise (fun a b => Before a.1 b.1)
  | .nil, p, _, e, he => by rw [itemsE] at he; cases he
  | .cons x n es, p, h, e, he => by
    rw [itemsE] at he
    cases h with
    | cons _ _ _ h1 h2 =>
      cases he with
      | head => exact items_sorted n _ h1
      | tail _ he => exact itemsE_sorted es p h2 e he
end

/-- What an item says about the tree. -/
def ItemAt (n : Node) (q : Path) : Item → Prop
  | .file f => At n q (.file f)
  | .unreadable => ∃ es, At n q (.dir false es)

/-- … about an entry. -/
def ItemAtE (es : Entries) (x : Name) (q : Path) : Item → Prop
  | .file f => AtEntry es x q (.file f)
  | .unreadable => ∃ es', AtEntry es x q (.dir false es')

theorem ItemAtE.toDir {es : Entries} {x : Name} {q : Path} {i : Item} (h : ItemAtE es x q i) : ItemAt (.dir true es) (x :: q) i := by
  cases i with
  | file f => exact At.inside _ _ _ _ _ h
  | unreadable => obtain ⟨es', h⟩ := h; exact ⟨es', At.inside _ _ _ _ _ h⟩

theorem ItemAtE.first {n : Node} {es : Entries} {x : Name} {q : Path} {i : Item} (h : ItemAt n q i) : ItemAtE (.cons x n es) x q i := by
  cases i with
  | file f => exact AtEntry.first _ _ _ _ _ h
  | unreadable => obtain ⟨es', h⟩ := h; exact ⟨es', AtEntry.first _ _ _ _ _ h⟩

theorem ItemAtE.later {y : Name} {n : Node} {es : Entries} {x : Name} {q : Path} {i : Item} (h : ItemAtE es x q i) : ItemAtE (.cons y n es) x q i := by
  cases i with
  | file f => exact AtEntry.later _ _ _ _ _ _ h
  | unreadable => obtain ⟨es', h⟩ := h; exact ⟨es', AtEntry.later _ _ _ _ _ _ h⟩

mutual
theorem items_sound : (n : Node) → (p : Path) → ∀ x ∈ items n p, ∃ q, x.1 = p ++ q ∧ ItemAt n q x.2
  | .file f, p, x, hx => by
    rw [items, List.mem_singleton] at hx
    subst hx
    exact ⟨[], (List.append_nil _).symm, At.here _⟩
  | .dir r es, p, x, hx => by
    rw [items] at hx
    cases r with
    | false =>
      rw [if_pos (by decide), List.mem_singleton] at hx
      subst hx
      exact ⟨[], (List.append_nil _).symm, es, At.here _⟩
    | true =>
      rw [if_neg (by decide), List.mem_flatMap] at hx
      obtain ⟨e, he, hx⟩ := hx
      rw [List.mem_mergeSort] at he
      obtain ⟨q, hq, h⟩ := itemsE_sound es p e he x hx
      exact ⟨_, hq, h.toDir⟩
theorem itemsE_sound : (es : Entries) → (p : Path) → ∀ e ∈ itemsE es p, ∀ x ∈ e.2, ∃ q, x.1 = p ++ e.1 :: q ∧ ItemAtE es e.1 q x.2
  | .nil, p, e, he, x, hx => by rw [itemsE] at he; cases he
  | .cons y n es, p, e, he, x, hx => by
    rw [itemsE] at he
    cases he with
    | head =>
      obtain ⟨q, hq, h⟩ := items_sound n (p ++ [y]) x hx
      exact ⟨q, by rw [hq, List.append_assoc]; rfl, ItemAtE.first h⟩
    | tail _ he =>
      obtain ⟨q, hq, h⟩ := itemsE_sound es p e he x hx
      exact ⟨q, hq, ItemAtE.later h⟩
end

mutual
/-- A file is an item, or there is a directory above it that can't be read. -/
theorem items_complete : (n : Node) → (p q : Path) → (f : File) → At n q (.file f) →
    (p ++ q, Item.file f) ∈ items n p ∨ ∃ q', q' <+: q ∧ (p ++ q', Item.unreadable) ∈ items n p
  | .file g, p, q, f, h => by
    cases h
    left
    rw [items, List.append_nil]
    exact List.mem_singleton.mpr rfl
  | .dir r es, p, q, f, h => by
    cases r with
    | false =>
      right
      refine ⟨[], List.nil_prefix, ?_⟩
      rw [items, if_pos (by decide), List.append_nil]
      exact List.mem_singleton.mpr rfl
    | true =>
      cases h with
      | inside _ _ x q _ h =>
        obtain ⟨e, he, h1⟩ := itemsE_complete es p x q f h
        rw [items, if_neg (by decide)]
        rcases h1 with h1 | ⟨q', hq, h1⟩
        · exact Or.inl (List.mem_flatMap.mpr ⟨e, List.mem_mergeSort.mpr he, h1⟩)
        · exact Or.inr ⟨x :: q', (List.cons_prefix_cons).mpr ⟨rfl, hq⟩, List.mem_flatMap.mpr ⟨e, List.mem_mergeSort.mpr he, h1⟩⟩
theorem itemsE_complete : (es : Entries) → (p : Path) → (x : Name) → (q : Path) → (f : File) → AtEntry es x q (.file f) →
    ∃ e ∈ itemsE es p, (p ++ x :: q, Item.file f) ∈ e.2 ∨ ∃ q', q' <+: q ∧ (p ++ x :: q', Item.unreadable) ∈ e.2
  | .nil, p, x, q, f, h => by cases h
  | .cons y n es, p, x, q, f, h => by
    rw [itemsE]
    cases h with
    | first _ _ _ _ _ h =>
      refine ⟨_, List.mem_cons_self, ?_⟩
      have e (z : Path) : p ++ y :: z = p ++ [y] ++ z := by rw [List.append_assoc]; rfl
      rcases items_complete n (p ++ [y]) q f h with h1 | ⟨q', hq, h1⟩
      · left; exact (e q).symm ▸ h1
      · right; exact ⟨q', hq, (e q').symm ▸ h1⟩
    | later _ _ _ _ _ _ h =>
      obtain ⟨e, he, h1⟩ := itemsE_complete es p x q f h
      exact ⟨e, List.mem_cons_of_mem _ he, h1⟩
end

/-! ## What is done with an item -/

/-- What happens after an object is handed out. -/
def closes (r : Reply) (fd : Nat) : List Ev :=
  if r.close then [.closed .caller fd] else if r.take then [] else [.closed .walk fd]

/-- What a file adds to the trace. -/
inductive Block (cpus : Bool) (body : List Ev → Reply) (t : List Ev) (n : Nat) (p : Path) (f : File) : List Ev → Nat → Res → Prop
  | unopened : (∀ k, ¬ Loadable cpus f k) → Block cpus body t n p f [] n (.err (.entry p))
  | closed : (∀ k, ¬ Loadable cpus f k) → Block cpus body t n p f [.opened n p, .closed .walk n] (n + 1) (.err (.entry p))
  | leaked : (∀ k, ¬ Loadable cpus f k) → f.perCPU = true → cpus = false → Block cpus body t n p f [.opened n p] (n + 1) (.err (.entry p))
  | handed (k : Kind) : Loadable cpus f k →
      Block cpus body t n p f ([.opened n p, .yielded ⟨p, k, n, none⟩] ++ closes (body (t ++ [.opened n p, .yielded ⟨p, k, n, none⟩])) n) (n + 1)
        (resOf (body (t ++ [.opened n p, .yielded ⟨p, k, n, none⟩])).flow)

theorem Shown_trim {k : Kind} {s : List Char} (h : Shown k s) :
    trimAnon s = match k with | .map => "bpf-map".toList | .prog => "bpf-prog".toList | .link => "bpf-link".toList := by
  cases h <;> decide

theorem readType_some {f : File} {k : Kind} (h : ∃ s, f.fdLink = some s ∧ Shown k s) : readType f = some k := by
  obtain ⟨s, hs, h⟩ := h
  unfold readType
  rw [hs]
  have h1 := Shown_trim h
  cases k <;> simp only [] at h1 <;> simp only [h1] <;> decide

theorem trim_cases (s : List Char) : s = trimAnon s ∨ s = "anon_inode:".toList ++ trimAnon s := by
  unfold trimAnon
  split
  · rename_i h
    right
    obtain ⟨t, rfl⟩ := List.isPrefixOf_iff_prefix.mp h
    rfl
  · exact Or.inl rfl

theorem some_readType {f : File} {k : Kind} (h : readType f = some k) : ∃ s, f.fdLink = some s ∧ Shown k s := by
  unfold readType at h
  split at h
  · cases h
  · rename_i s hs
    refine ⟨s, hs, ?_⟩
    have hc := trim_cases s
    split at h
    · rename_i h1
      cases h
      rw [h1] at hc
      rcases hc with rfl | rfl
      · exact .map
      · exact .anonMap
    · split at h
      · rename_i h1
        cases h
        rw [h1] at hc
        rcases hc with rfl | rfl
        · exact .prog
        · exact .anonProg
      · split at h
        · rename_i h1
          cases h
          rw [h1] at hc
          rcases hc with rfl | rfl
          · exact .link
          · exact .anonLink
        · cases h

theorem not_loadable {cpus : Bool} {f : File} {k : Kind} (h : readType f = some k)
    (h1 : ¬ (f.infoOk = true ∧ (k = .map → f.perCPU = true → cpus = true))) (k' : Kind) : ¬ Loadable cpus f k' := by
  intro ⟨_, h3, h4⟩
  have := readType_some h3
  rw [h] at this
  cases this
  exact h1 h4

/-- The descriptors closed are old ones. -/
def Fresh (s : St) : Prop := ∀ fd ∈ s.gone, fd < s.next

theorem close_fresh {s : St} (h : Fresh s) {fd : Nat} (hfd : fd < s.next) (w : Who) : Fresh (s.close w fd) := by
  unfold St.close
  split
  · exact h
  · intro x hx
    rcases List.mem_cons.mp hx with rfl | hx
    · exact hfd
    · exact h x hx

theorem open_fresh {s : St} (h : Fresh s) (p : Path) : Fresh (s.openFd p) := fun x hx => Nat.lt_succ_of_lt (h x hx)

theorem close_new {s : St} (h : Fresh s) (p : Path) (w : Who) :
    (s.openFd p).close w s.next = ⟨s.trace ++ [.opened s.next p, .closed w s.next], s.next + 1, s.next :: s.gone⟩ := by
  unfold St.close
  rw [if_neg (show s.next ∉ (s.openFd p).gone from fun hc => Nat.lt_irrefl _ (h _ hc))]
  simp [St.openFd]

/-- What a visit of a file does. -/
theorem visit_block (cpus : Bool) (body : List Ev → Reply) (p : Path) (f : File) (s : St) (h : Fresh s) :
    ∃ blk, (visit cpus body p f s).1.trace = s.trace ++ blk ∧ Fresh (visit cpus body p f s).1 ∧
      Block cpus body s.trace s.next p f blk (visit cpus body p f s).1.next (visit cpus body p f s).2 := by
  have hclose : (∀ k, ¬ Loadable cpus f k) →
      (∃ blk, ((s.openFd p).close .walk s.next).trace = s.trace ++ blk ∧ Fresh ((s.openFd p).close .walk s.next) ∧
        Block cpus body s.trace s.next p f blk ((s.openFd p).close .walk s.next).next (.err (.entry p))) := by
    intro hn
    refine ⟨[.opened s.next p, .closed .walk s.next], ?_, close_fresh (open_fresh h p) (Nat.lt_succ_self _) _, ?_⟩
    · rw [close_new h]
    · rw [close_new h]; exact .closed hn
  have hdel : ∀ k, Loadable cpus f k →
      ∃ blk, (deliver body ⟨p, k, s.next, none⟩ (s.openFd p)).1.trace = s.trace ++ blk ∧ Fresh (deliver body ⟨p, k, s.next, none⟩ (s.openFd p)).1 ∧
        Block cpus body s.trace s.next p f blk (deliver body ⟨p, k, s.next, none⟩ (s.openFd p)).1.next (deliver body ⟨p, k, s.next, none⟩ (s.openFd p)).2 := by
    intro k hk
    have ht : ((s.openFd p).emit (.yielded ⟨p, k, s.next, none⟩)).trace = s.trace ++ [.opened s.next p, .yielded ⟨p, k, s.next, none⟩] := by
      simp [St.openFd, St.emit]
    have hg : s.next ∉ s.gone := fun hc => Nat.lt_irrefl _ (h _ hc)
    have hb := Block.handed (cpus := cpus) (body := body) (t := s.trace) (n := s.next) (p := p) (f := f) k hk
    refine ⟨[.opened s.next p, .yielded ⟨p, k, s.next, none⟩] ++ closes (body (s.trace ++ [.opened s.next p, .yielded ⟨p, k, s.next, none⟩])) s.next, ?_, ?_, ?_⟩
    · unfold deliver
      simp only [ht]
      generalize body (s.trace ++ [.opened s.next p, .yielded ⟨p, k, s.next, none⟩]) = r
      obtain ⟨t, c, fl⟩ := r
      cases t <;> cases c <;> simp [objectAfter, pinClose, St.close, closes, St.emit, St.openFd, hg]
    · unfold deliver
      simp only [ht]
      generalize body (s.trace ++ [.opened s.next p, .yielded ⟨p, k, s.next, none⟩]) = r
      have h0 : Fresh ((s.openFd p).emit (.yielded ⟨p, k, s.next, none⟩)) := open_fresh h p
      have h1 : Fresh (if r.close = true then ((s.openFd p).emit (.yielded ⟨p, k, s.next, none⟩)).close .caller s.next
          else (s.openFd p).emit (.yielded ⟨p, k, s.next, none⟩)) := by
        split
        · exact close_fresh h0 (Nat.lt_succ_self _) _
        · exact h0
      have h2 : s.next < (if r.close = true then ((s.openFd p).emit (.yielded ⟨p, k, s.next, none⟩)).close .caller s.next
          else (s.openFd p).emit (.yielded ⟨p, k, s.next, none⟩)).next := by
        split
        · unfold St.close; split <;> exact Nat.lt_succ_self _
        · exact Nat.lt_succ_self _
      unfold objectAfter
      split
      · exact h1
      · exact close_fresh h1 h2 _
    · unfold deliver
      simp only [ht]
      generalize body (s.trace ++ [.opened s.next p, .yielded ⟨p, k, s.next, none⟩]) = r at hb
      have e : (pinClose (objectAfter r ⟨p, k, s.next, none⟩) (if r.close = true then ((s.openFd p).emit (.yielded ⟨p, k, s.next, none⟩)).close .caller s.next
          else (s.openFd p).emit (.yielded ⟨p, k, s.next, none⟩))).next = s.next + 1 := by
        obtain ⟨t, c, fl⟩ := r
        cases t <;> cases c <;> simp [objectAfter, pinClose, St.close, St.emit, St.openFd, hg]
      rw [e]
      exact hb
  unfold visit load
  cases ho : f.objGet with
  | false =>
    refine ⟨[], (List.append_nil _).symm, h, .unopened ?_⟩
    intro k ⟨h1, _⟩
    rw [ho] at h1
    cases h1
  | true =>
    simp only [Bool.not_true, Bool.false_eq_true, if_false]
    cases hr : readType f with
    | none =>
      simp only []
      refine hclose ?_
      intro k ⟨_, h1, _⟩
      rw [readType_some h1] at hr
      cases hr
    | some k =>
      have hs := some_readType hr
      cases k with
      | map =>
        simp only [newMapFromFD]
        cases hi : f.infoOk with
        | false =>
          simp only [Bool.not_false, if_true]
          exact hclose (not_loadable hr (by rw [hi]; intro hc; cases hc.1))
        | true =>
          simp only [Bool.not_true, Bool.false_eq_true, if_false]
          cases hp : f.perCPU with
          | false =>
            simp only [Bool.not_false, if_true]
            exact hdel .map ⟨ho, hs, hi, by rw [hp]; intro _ hc; cases hc⟩
          | true =>
            simp only [Bool.not_true, Bool.false_eq_true, if_false]
            cases hc : cpus with
            | false =>
              simp only [Bool.not_false, if_true]
              subst hc
              refine ⟨[.opened s.next p], rfl, open_fresh h p, .leaked (not_loadable hr ?_) hp rfl⟩
              intro hx
              exact absurd (hx.2 rfl hp) (by decide)
            | true =>
              simp only [Bool.not_true, Bool.false_eq_true, if_false]
              subst hc
              exact hdel .map ⟨ho, hs, hi, fun _ _ => rfl⟩
      | prog =>
        simp only [newProgramFromFD]
        cases hi : f.infoOk with
        | false =>
          simp only [Bool.not_false, if_true]
          exact hclose (not_loadable hr (by rw [hi]; intro hc; cases hc.1))
        | true =>
          simp only [Bool.not_true, Bool.false_eq_true, if_false]
          exact hdel .prog ⟨ho, hs, hi, fun hc => by cases hc⟩
      | link =>
        simp only [newLinkFromFD]
        cases hi : f.infoOk with
        | false =>
          simp only [Bool.not_false, if_true]
          exact hclose (not_loadable hr (by rw [hi]; intro hc; cases hc.1))
        | true =>
          simp only [Bool.not_true, Bool.false_eq_true, if_false]
          exact hdel .link ⟨ho, hs, hi, fun hc => by cases hc⟩

/-- The walk over a list of items. -/
inductive Chain (cpus : Bool) (body : List Ev → Reply) : List (Path × Item) → List Ev → Nat → List Ev → Nat → Res → Prop
  | done (t : List Ev) (n : Nat) : Chain cpus body [] t n t n .nil
  | step (p : Path) (f : File) (rest : List (Path × Item)) (t : List Ev) (n : Nat) (blk : List Ev) (n1 : Nat) (t' : List Ev) (n' : Nat) (r : Res) :
      Block cpus body t n p f blk n1 .nil → Chain cpus body rest (t ++ blk) n1 t' n' r → Chain cpus body ((p, .file f) :: rest) t n t' n' r
  | halt (p : Path) (f : File) (rest : List (Path × Item)) (t : List Ev) (n : Nat) (blk : List Ev) (n1 : Nat) (r : Res) :
      Block cpus body t n p f blk n1 r → r ≠ .nil → Chain cpus body ((p, .file f) :: rest) t n (t ++ blk) n1 r
  | unreadable (p : Path) (rest : List (Path × Item)) (t : List Ev) (n : Nat) :
      Chain cpus body ((p, .unreadable) :: rest) t n t n (.err (.entry p))

theorem runItems_chain (cpus : Bool) (body : List Ev → Reply) (xs : List (Path × Item)) (s : St) (h : Fresh s) :
    Chain cpus body xs s.trace s.next (runItems cpus body xs s).1.trace (runItems cpus body xs s).1.next (runItems cpus body xs s).2 := by
  induction xs generalizing s with
  | nil => exact .done _ _
  | cons x xs ih =>
    obtain ⟨p, i⟩ := x
    rw [runItems_cons]
    cases i with
    | unreadable => exact .unreadable _ _ _ _
    | file f =>
      obtain ⟨blk, h1, h2, h3⟩ := visit_block cpus body p f s h
      show Chain _ _ _ _ _ (andThen (visit cpus body p f s) _).1.trace (andThen (visit cpus body p f s) _).1.next (andThen (visit cpus body p f s) _).2
      generalize hv : visit cpus body p f s = v at h1 h2 h3
      obtain ⟨s', r⟩ := v
      simp only at h1 h2 h3
      cases r with
      | nil =>
        have := ih s' h2
        rw [h1] at this
        exact .step p f xs _ _ blk s'.next _ _ _ h3 this
      | skipAll => rw [show (andThen (s', Res.skipAll) (runItems cpus body xs)).1.trace = s.trace ++ blk from h1]; exact .halt p f xs _ _ blk s'.next _ h3 (by intro hc; cases hc)
      | panic => rw [show (andThen (s', Res.panic) (runItems cpus body xs)).1.trace = s.trace ++ blk from h1]; exact .halt p f xs _ _ blk s'.next _ h3 (by intro hc; cases hc)
      | err e => rw [show (andThen (s', Res.err e) (runItems cpus body xs)).1.trace = s.trace ++ blk from h1]; exact .halt p f xs _ _ blk s'.next _ h3 (by intro hc; cases hc)

/-! ## Properties of traces -/

theorem snoc_split {α : Type} {t a b : List α} {e x : α} (h : t ++ [e] = a ++ x :: b) :
    (b = [] ∧ t = a ∧ e = x) ∨ ∃ b', b = b' ++ [e] ∧ t = a ++ x :: b' := by
  rcases List.eq_nil_or_concat b with rfl | ⟨b', z, rfl⟩
  · left
    have := List.append_inj' h rfl
    exact ⟨rfl, this.1, by simpa using this.2⟩
  · right
    rw [List.concat_eq_append] at h ⊢
    have h' : t ++ [e] = (a ++ x :: b') ++ [z] := by rw [h]; simp
    have := List.append_inj' h' rfl
    have hz : e = z := by simpa using this.2
    exact ⟨b', by rw [hz], this.1⟩

/-- Only descriptors opened so far. -/
def Old (n : Nat) : Ev → Prop
  | .opened fd _ => fd < n
  | .closed _ fd => fd < n
  | .yielded o => o.fd < n
  | .failed _ => True

theorem Taken_snoc {body : List Ev → Reply} {t : List Ev} {e : Ev} {fd : Nat} (h : Taken body (t ++ [e]) fd) :
    Taken body t fd ∨ ∃ o, e = .yielded o ∧ o.fd = fd ∧ (body (t ++ [e])).take = true := by
  obtain ⟨a, o, b, h1, h2, h3⟩ := h
  rcases snoc_split h1 with ⟨rfl, rfl, rfl⟩ | ⟨b', rfl, h4⟩
  · exact Or.inr ⟨o, rfl, h2, h3⟩
  · exact Or.inl ⟨a, o, b', h4, h2, h3⟩

theorem Taken_append {body : List Ev → Reply} {t : List Ev} (u : List Ev) {fd : Nat} (h : Taken body t fd) : Taken body (t ++ u) fd := by
  obtain ⟨a, o, b, h1, h2, h3⟩ := h
  exact ⟨a, o, b ++ u, by rw [h1]; simp, h2, h3⟩

theorem Closed_append {t : List Ev} (u : List Ev) {fd : Nat} (h : Closed t fd) : Closed (t ++ u) fd := by
  obtain ⟨w, h⟩ := h
  exact ⟨w, List.mem_append_left _ h⟩

/-- Descriptors are used as they should. -/
structure Safe (body : List Ev → Reply) (n : Nat) (t : List Ev) : Prop where
  old : ∀ e ∈ t, Old n e
  openOnce : ∀ a fd p b, t = a ++ .opened fd p :: b → ∀ p', Ev.opened fd p' ∉ a
  closeOnce : ∀ a w fd b, t = a ++ .closed w fd :: b → (∃ p, Ev.opened fd p ∈ a) ∧ ¬ Closed a fd
  kept : ∀ fd, Taken body t fd → Ev.closed .walk fd ∉ t
  few : ∀ a fd p b, t = a ++ .opened fd p :: b → ∀ fd' p', Ev.opened fd' p' ∈ a → Closed a fd' ∨ Taken body a fd'
  live : ∀ a o b, t = a ++ .yielded o :: b → Ev.opened o.fd o.path ∈ a ∧ ¬ Closed a o.fd

/-- Every descriptor is closed or was taken. -/
def Done (body : List Ev → Reply) (t : List Ev) : Prop := ∀ fd p, Ev.opened fd p ∈ t → Closed t fd ∨ Taken body t fd

theorem Old.mono {n m : Nat} {e : Ev} (h : Old n e) (hm : n ≤ m) : Old m e := by
  cases e <;> simp only [Old] at h ⊢ <;> omega

theorem safe_open {body : List Ev → Reply} {n : Nat} {t : List Ev} (h : Safe body n t) (hd : Done body t) (p : Path) :
    Safe body (n + 1) (t ++ [.opened n p]) := by
  refine ⟨?_, ?_, ?_, ?_, ?_, ?_⟩
  · intro e he
    rcases List.mem_append.mp he with he | he
    · exact (h.old e he).mono (Nat.le_succ _)
    · rw [List.mem_singleton] at he
      subst he
      exact Nat.lt_succ_self n
  · intro a fd q b hs
    rcases snoc_split hs with ⟨_, rfl, h1⟩ | ⟨b', _, h1⟩
    · cases h1
      intro p' hc
      exact Nat.lt_irrefl _ (h.old _ hc)
    · exact h.openOnce a fd q b' h1
  · intro a w fd b hs
    rcases snoc_split hs with ⟨_, rfl, h1⟩ | ⟨b', _, h1⟩
    · cases h1
    · exact h.closeOnce a w fd b' h1
  · intro fd ht hc
    rcases Taken_snoc ht with ht | ⟨o, h1, _⟩
    · rcases List.mem_append.mp hc with hc | hc
      · exact h.kept fd ht hc
      · rw [List.mem_singleton] at hc; cases hc
    · cases h1
  · intro a fd q b hs
    rcases snoc_split hs with ⟨_, rfl, h1⟩ | ⟨b', _, h1⟩
    · exact hd
    · exact h.few a fd q b' h1
  · intro a o b hs
    rcases snoc_split hs with ⟨_, rfl, h1⟩ | ⟨b', _, h1⟩
    · cases h1
    · exact h.live a o b' h1

theorem safe_yield {body : List Ev → Reply} {n : Nat} {t : List Ev} (h : Safe body n t) (o : Obj) (ho : Ev.opened o.fd o.path ∈ t) (hc : ¬ Closed t o.fd) :
    Safe body n (t ++ [.yielded o]) := by
  refine ⟨?_, ?_, ?_, ?_, ?_, ?_⟩
  · intro e he
    rcases List.mem_append.mp he with he | he
    · exact h.old e he
    · rw [List.mem_singleton] at he
      subst he
      exact (show Old n (.opened _ _) from h.old _ ho)
  · intro a fd q b hs
    rcases snoc_split hs with ⟨_, rfl, h1⟩ | ⟨b', _, h1⟩
    · cases h1
    · exact h.openOnce a fd q b' h1
  · intro a w fd b hs
    rcases snoc_split hs with ⟨_, rfl, h1⟩ | ⟨b', _, h1⟩
    · cases h1
    · exact h.closeOnce a w fd b' h1
  · intro fd ht hx
    rcases List.mem_append.mp hx with hx | hx
    · rcases Taken_snoc ht with ht | ⟨o', h1, h2, _⟩
      · exact h.kept fd ht hx
      · cases h1
        subst h2
        exact hc ⟨_, hx⟩
    · rw [List.mem_singleton] at hx; cases hx
  · intro a fd q b hs
    rcases snoc_split hs with ⟨_, rfl, h1⟩ | ⟨b', _, h1⟩
    · cases h1
    · exact h.few a fd q b' h1
  · intro a o' b hs
    rcases snoc_split hs with ⟨_, rfl, h1⟩ | ⟨b', _, h1⟩
    · cases h1
      exact ⟨ho, hc⟩
    · exact h.live a o' b' h1

theorem safe_close {body : List Ev → Reply} {n : Nat} {t : List Ev} (h : Safe body n t) {fd : Nat} {p : Path} (ho : Ev.opened fd p ∈ t) (hc : ¬ Closed t fd)
    (w : Who) (hw : w = .walk → ¬ Taken body t fd) : Safe body n (t ++ [.closed w fd]) := by
  refine ⟨?_, ?_, ?_, ?_, ?_, ?_⟩
  · intro e he
    rcases List.mem_append.mp he with he | he
    · exact h.old e he
    · rw [List.mem_singleton] at he
      subst he
      exact (show Old n (.opened _ _) from h.old _ ho)
  · intro a fd q b hs
    rcases snoc_split hs with ⟨_, rfl, h1⟩ | ⟨b', _, h1⟩
    · cases h1
    · exact h.openOnce a fd q b' h1
  · intro a w fd b hs
    rcases snoc_split hs with ⟨_, rfl, h1⟩ | ⟨b', _, h1⟩
    · cases h1
      exact ⟨⟨p, ho⟩, hc⟩
    · exact h.closeOnce a w fd b' h1
  · intro fd' ht hx
    rcases Taken_snoc ht with ht' | ⟨o', h1, _⟩
    · rcases List.mem_append.mp hx with hx | hx
      · exact h.kept fd' ht' hx
      · rw [List.mem_singleton] at hx
        cases hx
        exact hw rfl ht'
    · cases h1
  · intro a fd q b hs
    rcases snoc_split hs with ⟨_, rfl, h1⟩ | ⟨b', _, h1⟩
    · cases h1
    · exact h.few a fd q b' h1
  · intro a o' b hs
    rcases snoc_split hs with ⟨_, rfl, h1⟩ | ⟨b', _, h1⟩
    · cases h1
    · exact h.live a o' b' h1

theorem safe_fail {body : List Ev → Reply} {n : Nat} {t : List Ev} (h : Safe body n t) (e : Err) : Safe body n (t ++ [.failed e]) := by
  refine ⟨?_, ?_, ?_, ?_, ?_, ?_⟩
  · intro e he
    rcases List.mem_append.mp he with he | he
    · exact h.old e he
    · rw [List.mem_singleton] at he
      subst he
      trivial
  · intro a fd q b hs
    rcases snoc_split hs with ⟨_, rfl, h1⟩ | ⟨b', _, h1⟩
    · cases h1
    · exact h.openOnce a fd q b' h1
  · intro a w fd b hs
    rcases snoc_split hs with ⟨_, rfl, h1⟩ | ⟨b', _, h1⟩
    · cases h1
    · exact h.closeOnce a w fd b' h1
  · intro fd' ht hx
    rcases Taken_snoc ht with ht | ⟨o', h1, _⟩
    · rcases List.mem_append.mp hx with hx | hx
      · exact h.kept fd' ht hx
      · rw [List.mem_singleton] at hx; cases hx
    · cases h1
  · intro a fd q b hs
    rcases snoc_split hs with ⟨_, rfl, h1⟩ | ⟨b', _, h1⟩
    · cases h1
    · exact h.few a fd q b' h1
  · intro a o' b hs
    rcases snoc_split hs with ⟨_, rfl, h1⟩ | ⟨b', _, h1⟩
    · cases h1
    · exact h.live a o' b' h1

theorem fresh_not_closed {body : List Ev → Reply} {n : Nat} {t : List Ev} (h : Safe body n t) : ¬ Closed t n :=
  fun ⟨_, hc⟩ => Nat.lt_irrefl _ (h.old _ hc)

theorem fresh_not_taken {body : List Ev → Reply} {n : Nat} {t : List Ev} (h : Safe body n t) : ¬ Taken body t n := by
  intro ⟨a, o, b, h1, h2, _⟩
  have := h.old (.yielded o) (by rw [h1]; exact List.mem_append_right _ List.mem_cons_self)
  simp only [Old] at this
  omega

theorem not_closed_snoc {t : List Ev} {fd : Nat} {e : Ev} (h : ¬ Closed t fd) (he : ∀ w, e ≠ .closed w fd) : ¬ Closed (t ++ [e]) fd := by
  intro ⟨w, hw⟩
  rcases List.mem_append.mp hw with hw | hw
  · exact h ⟨w, hw⟩
  · exact he w (List.mem_singleton.mp hw).symm

theorem done_append {body : List Ev → Reply} {t : List Ev} (h : Done body t) (u : List Ev) {n : Nat}
    (hu : ∀ fd p, Ev.opened fd p ∈ u → fd = n) (hn : Closed (t ++ u) n ∨ Taken body (t ++ u) n) : Done body (t ++ u) := by
  intro fd p ho
  rcases List.mem_append.mp ho with ho | ho
  · rcases h fd p ho with h1 | h1
    · exact Or.inl (Closed_append u h1)
    · exact Or.inr (Taken_append u h1)
  · rw [hu fd p ho]; exact hn

/-- Descriptors after a block. -/
theorem block_safe {cpus : Bool} {body : List Ev → Reply} {t : List Ev} {n : Nat} {p : Path} {f : File} {blk : List Ev} {n' : Nat} {r : Res}
    (hb : Block cpus body t n p f blk n' r) (h : Safe body n t) (hd : Done body t) :
    Safe body n' (t ++ blk) ∧ (Done body (t ++ blk) ∨ (blk = [.opened n p] ∧ f.perCPU = true ∧ cpus = false ∧ r = .err (.entry p))) := by
  have h1 := safe_open h hd p
  have hc1 : ¬ Closed (t ++ [.opened n p]) n := not_closed_snoc (fresh_not_closed h) (by intro w hc; cases hc)
  have ho1 : Ev.opened n p ∈ t ++ [.opened n p] := List.mem_append_right _ (List.mem_singleton.mpr rfl)
  have ht1 : ¬ Taken body (t ++ [.opened n p]) n := by
    intro hc
    rcases Taken_snoc hc with hc | ⟨_, hc, _⟩
    · exact fresh_not_taken h hc
    · cases hc
  cases hb with
  | unopened => rw [List.append_nil]; exact ⟨h, Or.inl hd⟩
  | closed =>
    have e : t ++ [Ev.opened n p, .closed .walk n] = (t ++ [.opened n p]) ++ [.closed .walk n] := by simp
    refine ⟨by rw [e]; exact safe_close h1 ho1 hc1 .walk (fun _ => ht1), Or.inl (done_append hd _ (n := n) ?_ (Or.inl ⟨.walk, by simp⟩))⟩
    intro fd q hq
    simp at hq
    exact hq.1
  | leaked _ hp hc => exact ⟨h1, Or.inr ⟨rfl, hp, hc, rfl⟩⟩
  | handed k hk =>
    have h2 := safe_yield h1 ⟨p, k, n, none⟩ ho1 hc1
    have hc2 : ¬ Closed (t ++ [.opened n p] ++ [.yielded ⟨p, k, n, none⟩]) n := not_closed_snoc hc1 (by intro w hc; cases hc)
    have ho2 : Ev.opened n p ∈ t ++ [.opened n p] ++ [.yielded ⟨p, k, n, none⟩] := List.mem_append_left _ ho1
    have e : t ++ [Ev.opened n p, .yielded ⟨p, k, n, none⟩] = t ++ [.opened n p] ++ [.yielded ⟨p, k, n, none⟩] := by simp
    rw [← List.append_assoc]
    rw [e]
    generalize hr : body (t ++ [Ev.opened n p] ++ [Ev.yielded ⟨p, k, n, none⟩]) = r
    have hu : ∀ u, (∀ fd q, Ev.opened fd q ∉ u) → ∀ fd q, Ev.opened fd q ∈ [Ev.opened n p, .yielded ⟨p, k, n, none⟩] ++ u → fd = n := by
      intro u hu fd q hq
      rcases List.mem_append.mp hq with hq | hq
      · simp at hq; exact hq.1
      · exact absurd hq (hu fd q)
    unfold closes
    split
    · refine ⟨safe_close h2 ho2 hc2 .caller (by intro hc; cases hc), Or.inl ?_⟩
      rw [← e, List.append_assoc]
      exact done_append hd _ (hu _ (by intro fd q hq; simp at hq)) (Or.inl ⟨.caller, by simp⟩)
    · split
      · rename_i htake
        rw [List.append_nil]
        refine ⟨h2, Or.inl ?_⟩
        rw [← e]
        refine done_append hd _ (n := n) (fun fd q hq => hu [] (by intro _ _ h; cases h) fd q hq) (Or.inr ⟨t ++ [.opened n p], ⟨p, k, n, none⟩, [], by simp, rfl, ?_⟩)
        rw [hr]; exact htake
      · rename_i htake
        refine ⟨safe_close h2 ho2 hc2 .walk ?_, Or.inl ?_⟩
        · intro _ hc
          rcases Taken_snoc hc with hc | ⟨o, _, _, h3⟩
          · exact ht1 hc
          · rw [hr] at h3; exact htake h3
        · rw [← e, List.append_assoc]
          exact done_append hd _ (hu _ (by intro fd q hq; simp at hq)) (Or.inl ⟨.walk, by simp⟩)

theorem chain_safe {cpus : Bool} {body : List Ev → Reply} {xs : List (Path × Item)} {t : List Ev} {n : Nat} {t' : List Ev} {n' : Nat} {r : Res}
    (hc : Chain cpus body xs t n t' n' r) (h : Safe body n t) (hd : Done body t) :
    Safe body n' t' ∧ (Done body t' ∨ ∃ a n p f, t' = a ++ [.opened n p] ∧ Done body a ∧ (p, Item.file f) ∈ xs ∧ f.perCPU = true ∧ cpus = false ∧ r = .err (.entry p)) := by
  induction hc with
  | done => exact ⟨h, Or.inl hd⟩
  | step p f rest t n blk n1 t' n' r hb hc ih =>
    obtain ⟨h1, h2⟩ := block_safe hb h hd
    rcases h2 with h2 | ⟨_, _, _, h2⟩
    · obtain ⟨h3, h4⟩ := ih h1 h2
      refine ⟨h3, h4.imp (fun x => x) ?_⟩
      rintro ⟨a, n, p', f', h5, h6, h7, h8⟩
      exact ⟨a, n, p', f', h5, h6, List.mem_cons_of_mem _ h7, h8⟩
    · cases h2
  | halt p f rest t n blk n1 r hb hr =>
    obtain ⟨h1, h2⟩ := block_safe hb h hd
    refine ⟨h1, h2.imp (fun x => x) ?_⟩
    rintro ⟨h3, h4, h5, h6⟩
    exact ⟨t, n, p, f, by rw [h3], hd, List.mem_cons_self, h4, h5, h6⟩
  | unreadable => exact ⟨h, Or.inl hd⟩

theorem split_append {α : Type} {t u a b : List α} {x : α} (h : t ++ u = a ++ x :: b) :
    (∃ b', t = a ++ x :: b' ∧ b = b' ++ u) ∨ ∃ a', a = t ++ a' ∧ u = a' ++ x :: b := by
  rcases List.append_eq_append_iff.mp h with ⟨a', h1, h2⟩ | ⟨c', h1, h2⟩
  · exact Or.inr ⟨a', h1, h2⟩
  · cases c' with
    | nil => right; exact ⟨[], by rw [h1]; simp, by simpa using h2.symm⟩
    | cons y c' =>
      rw [List.cons_append, List.cons.injEq] at h2
      obtain ⟨rfl, h2⟩ := h2
      exact Or.inl ⟨c', h1, h2⟩

theorem closes_only {r : Reply} {fd : Nat} {e : Ev} (h : e ∈ closes r fd) : ∃ w, e = .closed w fd := by
  unfold closes at h
  split at h
  · exact ⟨_, List.mem_singleton.mp h⟩
  · split at h
    · cases h
    · exact ⟨_, List.mem_singleton.mp h⟩

theorem handed_split {p : Path} {n : Nat} {o o' : Obj} {r : Reply} {a b : List Ev}
    (h : [Ev.opened n p, .yielded o] ++ closes r n = a ++ .yielded o' :: b) : a = [.opened n p] ∧ o' = o ∧ b = closes r n := by
  cases a with
  | nil => cases h
  | cons x a =>
    simp only [List.cons_append, List.cons.injEq] at h
    obtain ⟨rfl, h⟩ := h
    cases a with
    | nil =>
      simp only [List.nil_append, List.cons.injEq, Ev.yielded.injEq] at h
      exact ⟨rfl, h.1.symm, h.2.symm⟩
    | cons y a =>
      simp only [List.nil_append, List.cons_append, List.cons.injEq] at h
      have hm : Ev.yielded o' ∈ closes r n := by rw [h.2]; exact List.mem_append_right _ List.mem_cons_self
      obtain ⟨w, hw⟩ := closes_only hm
      cases hw

/-- A block hands out an object, or reports an error. -/
theorem block_yields {cpus : Bool} {body : List Ev → Reply} {t : List Ev} {n : Nat} {p : Path} {f : File} {blk : List Ev} {n' : Nat} {r : Res}
    (hb : Block cpus body t n p f blk n' r) :
    ((∀ o, Ev.yielded o ∉ blk) ∧ r = .err (.entry p) ∧ ∀ k, ¬ Loadable cpus f k) ∨
    ∃ k, Loadable cpus f k ∧ blk = [.opened n p, .yielded ⟨p, k, n, none⟩] ++ closes (body (t ++ [.opened n p, .yielded ⟨p, k, n, none⟩])) n ∧
      r = resOf (body (t ++ [.opened n p, .yielded ⟨p, k, n, none⟩])).flow := by
  cases hb with
  | unopened h => exact Or.inl ⟨by simp, rfl, h⟩
  | closed h => exact Or.inl ⟨by simp, rfl, h⟩
  | leaked h => exact Or.inl ⟨by simp, rfl, h⟩
  | handed k h => exact Or.inr ⟨k, h, rfl, rfl⟩

theorem block_noFail {cpus : Bool} {body : List Ev → Reply} {t : List Ev} {n : Nat} {p : Path} {f : File} {blk : List Ev} {n' : Nat} {r : Res}
    (hb : Block cpus body t n p f blk n' r) (e : Err) : Ev.failed e ∉ blk := by
  cases hb with
  | unopened h => simp
  | closed h => simp
  | leaked h => simp
  | handed k h =>
    intro hc
    rcases List.mem_append.mp hc with hc | hc
    · simp at hc
    · obtain ⟨w, hw⟩ := closes_only hc
      cases hw

theorem resOf_nil {fl : Flow} : Res.nil = resOf fl ↔ fl = .next := by
  cases fl <;> simp [resOf]

theorem chain_noFail {cpus : Bool} {body : List Ev → Reply} {xs : List (Path × Item)} {t : List Ev} {n : Nat} {t' : List Ev} {n' : Nat} {r : Res}
    (hc : Chain cpus body xs t n t' n' r) (h : ∀ e, Ev.failed e ∉ t) : ∀ e, Ev.failed e ∉ t' := by
  have key : ∀ {t : List Ev} {n p f blk n1 r}, Block cpus body t n p f blk n1 r → (∀ e, Ev.failed e ∉ t) → ∀ e, Ev.failed e ∉ t ++ blk := by
    intro t n p f blk n1 r hb h e hm
    rcases List.mem_append.mp hm with hm | hm
    · exact h e hm
    · exact block_noFail hb e hm
  induction hc with
  | done => exact h
  | step p f rest t n blk n1 t' n' r hb hc ih => exact ih (key hb h)
  | halt p f rest t n blk n1 r hb hr => exact key hb h
  | unreadable => exact h

/-- The loop body went on each time. -/
def AllNext (body : List Ev → Reply) (t : List Ev) : Prop :=
  ∀ a o b, t = a ++ Ev.yielded o :: b → (body (a ++ [Ev.yielded o])).flow = .next

/-- After the loop body leaves nothing but closing. -/
def Leaves (body : List Ev → Reply) (t : List Ev) (r : Res) : Prop :=
  ∀ a o b, t = a ++ Ev.yielded o :: b → (body (a ++ [Ev.yielded o])).flow = .next ∨
    ((∀ e ∈ b, ∃ w fd, e = .closed w fd) ∧ r = resOf (body (a ++ [Ev.yielded o])).flow)

theorem block_leaves {cpus : Bool} {body : List Ev → Reply} {t : List Ev} {n : Nat} {p : Path} {f : File} {blk : List Ev} {n' : Nat} {r : Res}
    (hb : Block cpus body t n p f blk n' r) (h : AllNext body t) : Leaves body (t ++ blk) r := by
  intro a o b hs
  rcases split_append hs with ⟨b', h1, h2⟩ | ⟨a', h1, h2⟩
  · exact Or.inl (h a o b' h1)
  · rcases block_yields hb with ⟨h3, _⟩ | ⟨k, _, h3, h4⟩
    · exact absurd (by rw [h2]; exact List.mem_append_right _ List.mem_cons_self) (h3 o)
    · right
      rw [h3] at h2
      obtain ⟨rfl, rfl, rfl⟩ := handed_split h2
      subst h1
      refine ⟨fun e he => ?_, ?_⟩
      · obtain ⟨w, hw⟩ := closes_only he
        exact ⟨w, n, hw⟩
      · rw [h4]; simp

theorem chain_leaves {cpus : Bool} {body : List Ev → Reply} {xs : List (Path × Item)} {t : List Ev} {n : Nat} {t' : List Ev} {n' : Nat} {r : Res}
    (hc : Chain cpus body xs t n t' n' r) (h : AllNext body t) : Leaves body t' r := by
  induction hc with
  | done => exact fun a o b hs => Or.inl (h a o b hs)
  | step p f rest t n blk n1 t' n' r hb hc ih =>
    refine ih (fun a o b hs => ?_)
    rcases block_leaves hb h a o b hs with h1 | ⟨_, h1⟩
    · exact h1
    · exact resOf_nil.mp h1
  | halt p f rest t n blk n1 r hb hr => exact block_leaves hb h
  | unreadable => exact fun a o b hs => Or.inl (h a o b hs)

theorem chain_handed {cpus : Bool} {body : List Ev → Reply} {xs : List (Path × Item)} {t : List Ev} {n : Nat} {t' : List Ev} {n' : Nat} {r : Res}
    (hc : Chain cpus body xs t n t' n' r) {o : Obj} (h : Ev.yielded o ∈ t') :
    Ev.yielded o ∈ t ∨ ∃ f, (o.path, Item.file f) ∈ xs ∧ Loadable cpus f o.kind ∧ o.pinnedPath = none := by
  have key : ∀ {t : List Ev} {n p f blk n1 r}, Block cpus body t n p f blk n1 r → Ev.yielded o ∈ t ++ blk →
      Ev.yielded o ∈ t ∨ (o.path = p ∧ Loadable cpus f o.kind ∧ o.pinnedPath = none) := by
    intro t n p f blk n1 r hb hm
    rcases List.mem_append.mp hm with hm | hm
    · exact Or.inl hm
    · right
      rcases block_yields hb with ⟨h3, _⟩ | ⟨k, hk, h3, h4⟩
      · exact absurd hm (h3 o)
      · obtain ⟨a, b, hab⟩ := List.append_of_mem hm
        rw [h3] at hab
        obtain ⟨_, rfl, _⟩ := handed_split hab
        exact ⟨rfl, hk, rfl⟩
  induction hc with
  | done => exact Or.inl h
  | step p f rest t n blk n1 t' n' r hb hc ih =>
    rcases ih h with h1 | ⟨g, h1, h2⟩
    · rcases key hb h1 with h2 | ⟨rfl, h2⟩
      · exact Or.inl h2
      · exact Or.inr ⟨f, List.mem_cons_self, h2⟩
    · exact Or.inr ⟨g, List.mem_cons_of_mem _ h1, h2⟩
  | halt p f rest t n blk n1 r hb hr =>
    rcases key hb h with h2 | ⟨rfl, h2⟩
    · exact Or.inl h2
    · exact Or.inr ⟨f, List.mem_cons_self, h2⟩
  | unreadable => exact Or.inl h

/-- The item can't be handed out. -/
def Bad (cpus : Bool) : Item → Prop
  | .file f => ∀ k, ¬ Loadable cpus f k
  | .unreadable => True

theorem paths_append (t u : List Ev) : paths (t ++ u) = paths t ++ paths u := List.filterMap_append

theorem paths_none {u : List Ev} (h : ∀ o, Ev.yielded o ∉ u) : paths u = [] := by
  unfold paths
  rw [List.filterMap_eq_nil_iff]
  intro e he
  cases e with
  | yielded o => exact absurd he (h o)
  | _ => rfl

theorem block_paths {cpus : Bool} {body : List Ev → Reply} {t : List Ev} {n : Nat} {p : Path} {f : File} {blk : List Ev} {n' : Nat} {r : Res}
    (hb : Block cpus body t n p f blk n' r) :
    (paths (t ++ blk) = paths t ∧ r = .err (.entry p) ∧ ∀ k, ¬ Loadable cpus f k) ∨
    (paths (t ++ blk) = paths t ++ [p] ∧ ∃ a o b, t ++ blk = a ++ .yielded o :: b ∧ o.path = p ∧ r = resOf (body (a ++ [.yielded o])).flow) := by
  rcases block_yields hb with ⟨h3, h4⟩ | ⟨k, hk, h3, h4⟩
  · exact Or.inl ⟨by rw [paths_append, paths_none h3, List.append_nil], h4⟩
  · right
    refine ⟨?_, t ++ [.opened n p], ⟨p, k, n, none⟩, closes (body (t ++ [.opened n p, .yielded ⟨p, k, n, none⟩])) n, ?_, rfl, ?_⟩
    · rw [h3, paths_append, paths_append, paths_none (u := closes _ _)]
      · rfl
      · intro o ho
        obtain ⟨w, hw⟩ := closes_only ho
        cases hw
    · rw [h3]; simp
    · rw [h4]; simp

theorem chain_paths {cpus : Bool} {body : List Ev → Reply} {xs : List (Path × Item)} {t : List Ev} {n : Nat} {t' : List Ev} {n' : Nat} {r : Res}
    (hc : Chain cpus body xs t n t' n' r) :
    ∃ pre post, xs = pre ++ post ∧ paths t' = paths t ++ pre.map (·.1) ∧
      ((post = [] ∧ r = .nil) ∨
       (∃ a o b pre' i, pre = pre' ++ [(o.path, i)] ∧ t' = a ++ .yielded o :: b ∧ (body (a ++ [.yielded o])).flow ≠ .next ∧ r = resOf (body (a ++ [.yielded o])).flow) ∨
       (∃ q i rest, post = (q, i) :: rest ∧ r = .err (.entry q) ∧ Bad cpus i)) := by
  induction hc with
  | done => exact ⟨[], [], rfl, by simp, Or.inl ⟨rfl, rfl⟩⟩
  | step p f rest t n blk n1 t' n' r hb hc ih =>
    obtain ⟨pre, post, h1, h2, h3⟩ := ih
    rcases block_paths hb with ⟨_, h4, _⟩ | ⟨h4, _⟩
    · cases h4
    · refine ⟨(p, .file f) :: pre, post, by rw [h1]; rfl, by rw [h2, h4]; simp, ?_⟩
      rcases h3 with h3 | ⟨a, o, b, pre', i, h3, h5⟩ | h3
      · exact Or.inl h3
      · exact Or.inr (Or.inl ⟨a, o, b, (p, .file f) :: pre', i, by rw [h3]; rfl, h5⟩)
      · exact Or.inr (Or.inr h3)
  | halt p f rest t n blk n1 r hb hr =>
    rcases block_paths hb with ⟨h3, h4, h5⟩ | ⟨h3, a, o, b, h4, rfl, h5⟩
    · exact ⟨[], (p, .file f) :: rest, rfl, by rw [h3]; simp, Or.inr (Or.inr ⟨p, .file f, rest, rfl, h4, h5⟩)⟩
    · refine ⟨[(o.path, .file f)], rest, rfl, by rw [h3]; rfl, Or.inr (Or.inl ⟨a, o, b, [], .file f, rfl, h4, ?_, h5⟩)⟩
      intro hc
      rw [hc] at h5
      exact hr h5
  | unreadable p rest t n => exact ⟨[], (p, .unreadable) :: rest, rfl, by simp, Or.inr (Or.inr ⟨p, .unreadable, rest, rfl, rfl, trivial⟩)⟩

/-! ## The claims -/

theorem fsType_iff (m : Magic) : fsType m = bpfFsMagic ↔ OnBpf m := by
  cases m with
  | w32 b =>
    unfold fsType bpfFsMagic OnBpf
    rw [← BitVec.toNat_inj]
    simp only [BitVec.truncate_eq_setWidth, BitVec.toNat_setWidth, BitVec.toNat_ofNat]
    have := b.isLt
    omega
  | w64 b =>
    unfold fsType bpfFsMagic OnBpf
    rw [← BitVec.toNat_inj]
    simp only [BitVec.toNat_ofNat]

/-- A root that isn't a directory on a BPF file system is reported once and nothing else happens. -/
theorem walk_root (cpus : Bool) (body : List Ev → Reply) (root : Root) (h : ∀ r es, ¬ Opens root r es) :
    ∃ e, (∀ q, e ≠ .entry q) ∧ walkDir cpus body root = ([.failed e], .returned) := by
  unfold walkDir
  cases hs : root.statfs with
  | none => exact ⟨.statfs, (fun q hc => by cases hc), rfl⟩
  | some m =>
    simp only []
    split
    · exact ⟨.notBpf, (fun q hc => by cases hc), rfl⟩
    · rename_i hm
      have hm := (fsType_iff m).mp (Decidable.of_not_not hm)
      cases hd : root.dir with
      | none => exact ⟨.rootStat, (fun q hc => by cases hc), rfl⟩
      | some x => exact absurd ⟨⟨m, hs, hm⟩, hd⟩ (h x.1 x.2)

/-- The walk of a root on a BPF file system. -/
theorem walk_open {cpus : Bool} {body : List Ev → Reply} {root : Root} {r : Bool} {es : Entries} (h : Opens root r es) :
    ∃ t n res, Chain cpus body (items (.dir r es) []) [] 0 t n res ∧
      walkDir cpus body root = match res with
        | .nil => (t, .returned)
        | .skipAll => (t, .returned)
        | .panic => (t, .panicked)
        | .err e => (t ++ [.failed e], .returned) := by
  obtain ⟨⟨m, hs, hm⟩, hd⟩ := h
  have hc := runItems_chain cpus body (items (.dir r es) []) start (by intro fd hfd; cases hfd)
  refine ⟨_, _, _, hc, ?_⟩
  unfold walkDir
  rw [hs, hd]
  simp only []
  rw [if_neg (fun hne => hne ((fsType_iff m).mpr hm)), walkNode_eq]
  generalize runItems cpus body (items (.dir r es) []) start = v
  obtain ⟨s, res⟩ := v
  cases res <;> rfl

theorem safe_nil (body : List Ev → Reply) : Safe body 0 [] := by
  refine ⟨?_, ?_, ?_, ?_, ?_, ?_⟩
  · intro e he; cases he
  · intro a fd p b h; cases a <;> cases h
  · intro a w fd b h; cases a <;> cases h
  · intro fd h hc; cases hc
  · intro a fd p b h; cases a <;> cases h
  · intro a o b h; cases a <;> cases h

theorem allNext_nil (body : List Ev → Reply) : AllNext body [] := by
  intro a o b h; cases a <;> cases h

theorem before_prefix {q q' p : Path} (h : Before q q') (hp : q' <+: p) : Before q p := by
  obtain ⟨c, a, b, x, y, rfl, rfl, hlt⟩ := h
  obtain ⟨z, rfl⟩ := hp
  exact ⟨c, a, b, x, y ++ z, rfl, by simp, hlt⟩

theorem paths_fail (t : List Ev) (e : Err) : paths (t ++ [.failed e]) = paths t := by
  rw [paths_append]
  exact List.append_nil _

/-- Objects are handed out in lexical order of their paths, each path at most once. -/
theorem walk_order (cpus : Bool) (body : List Ev → Reply) (root : Root) (r : Bool) (es : Entries) (h : Opens root r es) (hp : Proper (.dir r es)) :
    (paths (walkDir cpus body root).1).Pairwise Before := by
  obtain ⟨t, n, res, hc, hw⟩ := walk_open (cpus := cpus) (body := body) h
  obtain ⟨pre, post, h1, h2, _⟩ := chain_paths hc
  have hs := items_sorted (.dir r es) [] hp
  rw [h1] at hs
  have : (paths t).Pairwise Before := by
    rw [h2]
    exact List.pairwise_map.mpr (List.pairwise_append.mp hs).1
  rw [hw]
  cases res with
  | nil => exact this
  | skipAll => exact this
  | panic => exact this
  | err e => rw [paths_fail]; exact this

/-- Every object below the root is handed out, unless the loop was left, or an error was reported, at something not after it. -/
theorem walk_complete (cpus : Bool) (body : List Ev → Reply) (root : Root) (r : Bool) (es : Entries) (h : Opens root r es) (hp : Proper (.dir r es))
    (p : Path) (f : File) (hf : At (.dir r es) p (.file f)) :
    p ∈ paths (walkDir cpus body root).1 ∨
    ∃ q, (q <+: p ∨ Before q p) ∧ (LeftAt body (walkDir cpus body root).1 q ∨ Ev.failed (.entry q) ∈ (walkDir cpus body root).1) := by
  obtain ⟨t, n, res, hc, hw⟩ := walk_open (cpus := cpus) (body := body) h
  obtain ⟨pre, post, h1, h2, h3⟩ := chain_paths hc
  have hs := items_sorted (.dir r es) [] hp
  rw [h1] at hs
  have hs := List.pairwise_append.mp hs
  -- an item at or above the path
  have key : ∃ q' i, q' <+: p ∧ (q', i) ∈ pre ++ post ∧ ((q', i) ∈ pre → p ∈ paths t ∨ i = .unreadable) := by
    rcases items_complete (.dir r es) [] p f hf with hi | ⟨q', hq, hi⟩
    · rw [h1] at hi
      refine ⟨p, _, List.prefix_refl p, hi, fun hm => Or.inl ?_⟩
      rw [h2]
      exact List.mem_append_right _ (List.mem_map.mpr ⟨_, hm, rfl⟩)
    · rw [h1] at hi
      exact ⟨q', _, hq, hi, fun _ => Or.inr rfl⟩
  obtain ⟨q', i, hq, hi, hpre⟩ := key
  -- items in pre are files
  have hfile : ∀ x ∈ pre, x.2 ≠ .unreadable := by
    have : ∀ {xs t n t' n' r}, Chain cpus body xs t n t' n' r → ∀ pre post, xs = pre ++ post → paths t' = paths t ++ pre.map (·.1) → ∀ x ∈ pre, x.2 ≠ .unreadable := by
      intro xs t n t' n' r hc
      induction hc with
      | done => intro pre post h _ x hx; rw [(List.append_eq_nil_iff.mp h.symm).1] at hx; cases hx
      | step p f rest t n blk n1 t' n' r hb hc ih =>
        intro pre post hpp hpt x hx
        rcases block_paths hb with ⟨_, h4, _⟩ | ⟨h4, _⟩
        · cases h4
        · cases pre with
          | nil => cases hx
          | cons y pre =>
            rw [List.cons_append, List.cons.injEq] at hpp
            obtain ⟨rfl, hpp⟩ := hpp
            rcases List.mem_cons.mp hx with rfl | hx
            · intro hc; cases hc
            · refine ih pre post hpp ?_ x hx
              rw [hpt, h4]; simp
      | halt p f rest t n blk n1 r hb hr =>
        intro pre post hpp hpt x hx
        cases pre with
        | nil => cases hx
        | cons y pre =>
          rw [List.cons_append, List.cons.injEq] at hpp
          obtain ⟨rfl, hpp⟩ := hpp
          have hnil : pre = [] := by
            rcases block_paths hb with ⟨h4, _⟩ | ⟨h4, _⟩
            · rw [h4] at hpt
              have := congrArg List.length hpt
              simp at this
            · rw [h4] at hpt
              have := congrArg List.length hpt
              simp at this
              exact this
          subst hnil
          rw [List.mem_singleton] at hx
          subst hx
          intro hc; cases hc
      | unreadable p rest t n =>
        intro pre post hpp hpt x hx
        have := congrArg List.length hpt
        simp at this
        subst this
        cases hx
    exact this hc pre post h1 h2
  by_cases hm : (q', i) ∈ pre
  · rcases hpre hm with hx | hx
    · left
      rw [hw]
      cases res with
      | err e => rw [paths_fail]; exact hx
      | _ => exact hx
    · exact absurd hx (hfile _ hm)
  · have hpost : (q', i) ∈ post := (List.mem_append.mp hi).resolve_left hm
    right
    rcases h3 with ⟨h3, _⟩ | ⟨a, o, b, pre', j, h3, h4, h5, h6⟩ | ⟨q, j, rest, h3, h4, _⟩
    · rw [h3] at hpost; cases hpost
    · refine ⟨o.path, Or.inr (before_prefix (hs.2.2 (o.path, j) ?_ (q', i) hpost) hq), Or.inl ?_⟩
      · rw [h3]; exact List.mem_append_right _ (List.mem_singleton.mpr rfl)
      · rw [hw]
        cases res with
        | err e =>
          exfalso
          cases hfl : (body (a ++ [Ev.yielded o])).flow <;> rw [hfl] at h6 <;> cases h6
        | _ => exact ⟨a, o, b, h4, rfl, h5⟩
    · refine ⟨q, ?_, Or.inr ?_⟩
      · rw [h3] at hpost hs
        rcases List.mem_cons.mp hpost with hx | hx
        · cases hx; exact Or.inl hq
        · exact Or.inr (before_prefix ((List.pairwise_cons.mp hs.2.1).1 _ hx) hq)
      · rw [hw, h4]
        exact List.mem_append_right _ (List.mem_singleton.mpr rfl)

/-- What is handed out is an object below the root that can be loaded, with its path and type; it doesn't know that it is pinned. -/
theorem walk_sound (cpus : Bool) (body : List Ev → Reply) (root : Root) (r : Bool) (es : Entries) (h : Opens root r es) (o : Obj)
    (ho : Ev.yielded o ∈ (walkDir cpus body root).1) :
    ∃ f, At (.dir r es) o.path (.file f) ∧ Loadable cpus f o.kind ∧ o.pinnedPath = none := by
  obtain ⟨t, n, res, hc, hw⟩ := walk_open (cpus := cpus) (body := body) h
  have hm : Ev.yielded o ∈ t := by
    rw [hw] at ho
    cases res with
    | err e =>
      rcases List.mem_append.mp ho with ho | ho
      · exact ho
      · rw [List.mem_singleton] at ho; cases ho
    | _ => exact ho
  rcases chain_handed hc hm with h1 | ⟨f, h1, h2⟩
  · cases h1
  · obtain ⟨q, hq, h3⟩ := items_sound _ _ _ h1
    simp only [List.nil_append] at hq
    rw [← hq] at h3
    exact ⟨f, h3, h2⟩

/-- Once the loop body leaves there are no further calls and no error: at most the object is closed. The walk panics if and only if the loop body did. -/
theorem walk_stops (cpus : Bool) (body : List Ev → Reply) (root : Root) (r : Bool) (es : Entries) (h : Opens root r es) (a : List Ev) (o : Obj) (b : List Ev)
    (hs : (walkDir cpus body root).1 = a ++ .yielded o :: b) :
    (body (a ++ [.yielded o])).flow = .next ∨
    ((∀ e ∈ b, ∃ w fd, e = .closed w fd) ∧ ((walkDir cpus body root).2 = .panicked ↔ (body (a ++ [.yielded o])).flow = .panic)) := by
  obtain ⟨t, n, res, hc, hw⟩ := walk_open (cpus := cpus) (body := body) h
  have hl := chain_leaves hc (allNext_nil body)
  rw [hw] at hs ⊢
  cases res with
  | nil =>
    rcases hl a o b hs with h1 | ⟨h1, h2⟩
    · exact Or.inl h1
    · exact Or.inl (resOf_nil.mp h2)
  | skipAll =>
    refine (hl a o b hs).imp (fun x => x) (fun ⟨h1, h2⟩ => ⟨h1, ?_⟩)
    cases hfl : (body (a ++ [Ev.yielded o])).flow <;> rw [hfl] at h2 <;> simp [resOf] at h2 ⊢
  | panic =>
    refine (hl a o b hs).imp (fun x => x) (fun ⟨h1, h2⟩ => ⟨h1, ?_⟩)
    cases hfl : (body (a ++ [Ev.yielded o])).flow <;> rw [hfl] at h2 <;> simp [resOf] at h2 ⊢
  | err e =>
    simp only [] at hs
    rcases snoc_split hs with ⟨_, _, h1⟩ | ⟨b', _, h1⟩
    · cases h1
    · rcases hl a o b' h1 with h2 | ⟨_, h2⟩
      · exact Or.inl h2
      · exfalso
        cases hfl : (body (a ++ [Ev.yielded o])).flow <;> rw [hfl] at h2 <;> cases h2

/-- Without an object for which the loop body panics the walk returns. -/
theorem walk_returns (cpus : Bool) (body : List Ev → Reply) (root : Root) (h : ∀ t, (body t).flow ≠ .panic) : (walkDir cpus body root).2 = .returned := by
  by_cases ho : ∃ r es, Opens root r es
  · obtain ⟨r, es, ho⟩ := ho
    obtain ⟨t, n, res, hc, hw⟩ := walk_open (cpus := cpus) (body := body) ho
    rw [hw]
    cases res with
    | panic =>
      exfalso
      obtain ⟨pre, post, _, _, h3⟩ := chain_paths hc
      rcases h3 with ⟨_, h3⟩ | ⟨a, o, b, pre', j, h3, h4, h5, h6⟩ | ⟨q, j, rest, h3, h4, _⟩
      · cases h3
      · have := h (a ++ [.yielded o])
        cases hfl : (body (a ++ [Ev.yielded o])).flow with
        | panic => exact this hfl
        | next => rw [hfl] at h6; cases h6
        | stop => rw [hfl] at h6; cases h6
      · cases h4
    | _ => rfl
  · obtain ⟨e, _, he⟩ := walk_root cpus body root (fun r es hx => ho ⟨r, es, hx⟩)
    rw [he]

/-- An error is reported at most once, as the last thing the walk does, when the loop body always went on, and for a bad entry. -/
theorem walk_error (cpus : Bool) (body : List Ev → Reply) (root : Root) (r : Bool) (es : Entries) (h : Opens root r es) (a : List Ev) (e : Err) (b : List Ev)
    (hs : (walkDir cpus body root).1 = a ++ .failed e :: b) :
    b = [] ∧ (∀ e', Ev.failed e' ∉ a) ∧ (∀ q, ¬ LeftAt body a q) ∧ (walkDir cpus body root).2 = .returned ∧ ∃ q, e = .entry q ∧ BadEntry cpus (.dir r es) q := by
  obtain ⟨t, n, res, hc, hw⟩ := walk_open (cpus := cpus) (body := body) h
  have hn := chain_noFail hc (by intro e he; cases he)
  have hl := chain_leaves hc (allNext_nil body)
  have hno : t ≠ a ++ .failed e :: b := by
    intro hx
    exact hn e (by rw [hx]; exact List.mem_append_right _ List.mem_cons_self)
  rw [hw] at hs ⊢
  cases res with
  | nil => exact absurd hs hno
  | skipAll => exact absurd hs hno
  | panic => exact absurd hs hno
  | err e' =>
    simp only [] at hs
    rcases snoc_split hs with ⟨rfl, rfl, h1⟩ | ⟨b', _, h1⟩
    · cases h1
      refine ⟨rfl, hn, ?_, rfl, ?_⟩
      · rintro q ⟨a, o, b, h1, _, h2⟩
        rcases hl a o b h1 with h3 | ⟨_, h3⟩
        · exact h2 h3
        · cases hfl : (body (a ++ [Ev.yielded o])).flow <;> rw [hfl] at h3 <;> cases h3
      · obtain ⟨pre, post, h1, _, h3⟩ := chain_paths hc
        rcases h3 with ⟨_, h3⟩ | ⟨a, o, b, pre', j, h3, h4, h5, h6⟩ | ⟨q, j, rest, h3, h4, hb⟩
        · cases h3
        · cases hfl : (body (a ++ [Ev.yielded o])).flow <;> rw [hfl] at h6 <;> cases h6
        · cases h4
          refine ⟨q, rfl, ?_⟩
          have hi : (q, j) ∈ items (.dir r es) [] := by rw [h1, h3]; exact List.mem_append_right _ List.mem_cons_self
          obtain ⟨q', hq, h5⟩ := items_sound _ _ _ hi
          simp only [List.nil_append] at hq h5
          rw [← hq] at h5
          cases j with
          | file f => exact Or.inl ⟨f, h5, hb⟩
          | unreadable => exact Or.inr h5
    · exact absurd (by rw [h1]; exact List.mem_append_right _ List.mem_cons_self) (hn e)

/-- If everything below the root can be loaded and read, and the loop body always goes on, every object is handed out and there is no error. -/
theorem walk_all (cpus : Bool) (body : List Ev → Reply) (root : Root) (r : Bool) (es : Entries) (h : Opens root r es) (hp : Proper (.dir r es))
    (hgood : ∀ q, ¬ BadEntry cpus (.dir r es) q) (hbody : ∀ t, (body t).flow = .next) :
    (∀ p f, At (.dir r es) p (.file f) → p ∈ paths (walkDir cpus body root).1) ∧ (∀ e, Ev.failed e ∉ (walkDir cpus body root).1) := by
  have hno : ∀ e, Ev.failed e ∉ (walkDir cpus body root).1 := by
    intro e he
    obtain ⟨a, b, hab⟩ := List.append_of_mem he
    obtain ⟨_, _, _, _, q, _, hq⟩ := walk_error cpus body root r es h a e b hab
    exact hgood q hq
  refine ⟨fun p f hf => ?_, hno⟩
  rcases walk_complete cpus body root r es h hp p f hf with h1 | ⟨q, _, ⟨a, o, b, _, _, h2⟩ | h2⟩
  · exact h1
  · exact absurd (hbody _) h2
  · exact absurd h2 (hno _)

/-- Descriptors. Each is opened once, closed at most once and only after it was opened; the walk never closes what was taken; what is handed out is open; when
another one is opened all earlier ones are closed or taken. In the end each is closed or taken, except one for a map with values per CPU if the number of
CPUs is not known.

The full claim would be without the exception. -/
theorem walk_descriptors_partial (cpus : Bool) (body : List Ev → Reply) (root : Root) (t : List Ev) (ht : (walkDir cpus body root).1 = t) :
    (∀ a fd p b, t = a ++ .opened fd p :: b → ∀ p', Ev.opened fd p' ∉ a) ∧
    (∀ a w fd b, t = a ++ .closed w fd :: b → (∃ p, Ev.opened fd p ∈ a) ∧ ¬ Closed a fd) ∧
    (∀ fd, Taken body t fd → Ev.closed .walk fd ∉ t) ∧
    (∀ a o b, t = a ++ .yielded o :: b → Ev.opened o.fd o.path ∈ a ∧ ¬ Closed a o.fd) ∧
    (∀ a fd p b, t = a ++ .opened fd p :: b → ∀ fd' p', Ev.opened fd' p' ∈ a → Closed a fd' ∨ Taken body a fd') ∧
    (∀ fd p, Ev.opened fd p ∈ t → Closed t fd ∨ Taken body t fd ∨
      ∃ r es f, Opens root r es ∧ At (.dir r es) p (.file f) ∧ f.perCPU = true ∧ cpus = false ∧ Ev.failed (.entry p) ∈ t) := by
  suffices hx : ∃ n, Safe body n t ∧ (∀ fd p, Ev.opened fd p ∈ t → Closed t fd ∨ Taken body t fd ∨
      ∃ r es f, Opens root r es ∧ At (.dir r es) p (.file f) ∧ f.perCPU = true ∧ cpus = false ∧ Ev.failed (.entry p) ∈ t) by
    obtain ⟨n, hs, hd⟩ := hx
    exact ⟨hs.openOnce, hs.closeOnce, hs.kept, hs.live, hs.few, hd⟩
  by_cases ho : ∃ r es, Opens root r es
  · obtain ⟨r, es, ho⟩ := ho
    obtain ⟨u, n, res, hc, hw⟩ := walk_open (cpus := cpus) (body := body) ho
    obtain ⟨h1, h2⟩ := chain_safe hc (safe_nil body) (by intro fd p hm; cases hm)
    rw [hw] at ht
    have hdone : Done body u → ∀ v, ∀ fd p, Ev.opened fd p ∈ u → Closed (u ++ v) fd ∨ Taken body (u ++ v) fd := by
      intro hd v fd p hm
      exact (hd fd p hm).imp (Closed_append v) (Taken_append v)
    cases res with
    | err e =>
      simp only [] at ht
      refine ⟨n, by rw [← ht]; exact safe_fail h1 e, ?_⟩
      intro fd p hm
      rw [← ht] at hm ⊢
      have hm : Ev.opened fd p ∈ u := by
        rcases List.mem_append.mp hm with hm | hm
        · exact hm
        · rw [List.mem_singleton] at hm; cases hm
      rcases h2 with h2 | ⟨a, k, q, f, h3, h4, h5, h6, h7, h8⟩
      · exact (hdone h2 _ fd p hm).imp (fun x => x) Or.inl
      · rw [h3] at hm
        rcases List.mem_append.mp hm with hm | hm
        · rw [h3, List.append_assoc]
          rcases h4 fd p hm with h9 | h9
          · exact Or.inl (Closed_append _ h9)
          · exact Or.inr (Or.inl (Taken_append _ h9))
        · rw [List.mem_singleton] at hm
          cases hm
          cases h8
          obtain ⟨q', hq, h9⟩ := items_sound _ _ _ h5
          simp only [List.nil_append] at hq
          rw [← hq] at h9
          exact Or.inr (Or.inr ⟨r, es, f, ho, h9, h6, h7, List.mem_append_right _ (List.mem_singleton.mpr rfl)⟩)
    | nil =>
      simp only [] at ht
      subst ht
      refine ⟨n, h1, ?_⟩
      rcases h2 with h2 | ⟨_, _, _, _, _, _, _, _, _, h2⟩
      · exact fun fd p hm => (h2 fd p hm).imp (fun x => x) Or.inl
      · cases h2
    | skipAll =>
      simp only [] at ht
      subst ht
      refine ⟨n, h1, ?_⟩
      rcases h2 with h2 | ⟨_, _, _, _, _, _, _, _, _, h2⟩
      · exact fun fd p hm => (h2 fd p hm).imp (fun x => x) Or.inl
      · cases h2
    | panic =>
      simp only [] at ht
      subst ht
      refine ⟨n, h1, ?_⟩
      rcases h2 with h2 | ⟨_, _, _, _, _, _, _, _, _, h2⟩
      · exact fun fd p hm => (h2 fd p hm).imp (fun x => x) Or.inl
      · cases h2
  · obtain ⟨e, _, he⟩ := walk_root cpus body root (fun r es hx => ho ⟨r, es, hx⟩)
    rw [he] at ht
    subst ht
    refine ⟨0, safe_fail (safe_nil body) e, ?_⟩
    intro fd p hm
    simp at hm

/-! ## Examples and counterexamples -/

/-- A directory with a map, a directory with a program, and something else. -/
def exGood : File := ⟨true, some ("anon_inode:".toList ++ "bpf-map".toList), true, false⟩
/-- A program. -/
def exProg : File := ⟨true, some "bpf-prog".toList, true, false⟩
/-- A map with values per CPU. -/
def exPerCPU : File := ⟨true, some ("anon_inode:".toList ++ "bpf-map".toList), true, true⟩
/-- Not an object. -/
def exOther : File := ⟨false, none, false, false⟩
/-- The tree: b is a directory with the program p, a is a map. -/
def exTree : Entries := .cons ['b'] (.dir true (.cons ['p'] (.file exProg) .nil)) (.cons ['a'] (.file exGood) .nil)
/-- The root. -/
def exRoot (es : Entries) : Root := ⟨some (.w32 0xcafe4a11#32), some (true, es)⟩
/-- Takes nothing and goes on. -/
def exBody : List Ev → Reply := fun _ => ⟨false, false, .next⟩

example : Opens (exRoot exTree) true exTree := ⟨⟨_, rfl, rfl⟩, rfl⟩
example : Proper (.dir true exTree) :=
  .dir _ _ (by decide) (.cons _ _ _ (.dir _ _ (by decide) (.cons _ _ _ (.file _) .nil)) (.cons _ _ _ (.file _) .nil))
example : At (.dir true exTree) [['b'], ['p']] (.file exProg) := .inside _ _ _ _ _ (.first _ _ _ _ _ (.inside _ _ _ _ _ (.first _ _ _ _ _ (.here _))))

theorem ex_run (cpus : Bool) (body : List Ev → Reply) (es : Entries) :
    walkDir cpus body (exRoot es) = finish (runItems cpus body (items (.dir true es) []) start) := by
  show (if fsType (.w32 0xcafe4a11#32) ≠ bpfFsMagic then finish (start, .err .notBpf) else finish (walkNode cpus body (.dir true es) [] start)) = _
  rw [if_neg (fun h => h rfl), walkNode_eq]

theorem ex_items : items (.dir true exTree) [] = [([['a']], .file exGood), ([['b'], ['p']], .file exProg)] := by
  simp [items, itemsE, exTree, List.mergeSort, List.MergeSort.Internal.splitInTwo, List.merge]
  rw [if_neg (by decide)]
  rfl

/-- The walk: sorted, closed after each. -/
theorem ex_walk : walkDir true exBody (exRoot exTree) =
    ([.opened 0 [['a']], .yielded ⟨[['a']], .map, 0, none⟩, .closed .walk 0,
      .opened 1 [['b'], ['p']], .yielded ⟨[['b'], ['p']], .prog, 1, none⟩, .closed .walk 1], .returned) := by
  rw [ex_run, ex_items]
  decide

/-- The number of CPUs isn't known and there is a map with values per CPU: its descriptor is neither closed nor taken. -/
theorem walk_leaks : ∃ (body : List Ev → Reply) (root : Root) (es : Entries), Opens root true es ∧ Proper (.dir true es) ∧
    ∃ p, Ev.opened 0 p ∈ (walkDir false body root).1 ∧ ¬ Closed (walkDir false body root).1 0 ∧ ¬ Taken body (walkDir false body root).1 0 := by
  refine ⟨exBody, exRoot (.cons ['m'] (.file exPerCPU) .nil), .cons ['m'] (.file exPerCPU) .nil, ⟨⟨_, rfl, rfl⟩, rfl⟩,
    .dir _ _ (by decide) (.cons _ _ _ (.file _) .nil), [['m']], ?_⟩
  have e : walkDir false exBody (exRoot (.cons ['m'] (.file exPerCPU) .nil)) = ([.opened 0 [['m']], .failed (.entry [['m']])], .returned) := by
    have ei : items (.dir true (.cons ['m'] (.file exPerCPU) .nil)) [] = [([['m']], .file exPerCPU)] := by simp [items, itemsE]
    rw [ex_run, ei]
    decide
  rw [e]
  refine ⟨by simp, ?_, ?_⟩
  · rintro ⟨w, hw⟩
    simp at hw
  · rintro ⟨a, o, b, h, _⟩
    simp only [] at h
    have : Ev.yielded o ∈ [Ev.opened 0 [['m']], .failed (.entry [['m']])] := by rw [h]; exact List.mem_append_right _ List.mem_cons_self
    simp at this

/-- A single file that can't be loaded hides all objects after it. -/
theorem walk_hides : ∃ (root : Root) (es : Entries), Opens root true es ∧ Proper (.dir true es) ∧
    At (.dir true es) [['z']] (.file exGood) ∧ walkDir true exBody root = ([.failed (.entry [['a']])], .returned) := by
  refine ⟨exRoot (.cons ['a'] (.file exOther) (.cons ['z'] (.file exGood) .nil)), .cons ['a'] (.file exOther) (.cons ['z'] (.file exGood) .nil),
    ⟨⟨_, rfl, rfl⟩, rfl⟩, .dir _ _ (by decide) (.cons _ _ _ (.file _) (.cons _ _ _ (.file _) .nil)),
    .inside _ _ _ _ _ (.later _ _ _ _ _ _ (.first _ _ _ _ _ (.here _))), ?_⟩
  have ei : items (.dir true (.cons ['a'] (.file exOther) (.cons ['z'] (.file exGood) .nil))) [] = [([['a']], .file exOther), ([['z']], .file exGood)] := by
    simp [items, itemsE, List.mergeSort, List.MergeSort.Internal.splitInTwo, List.merge]
    rw [if_pos (by decide)]
    rfl
  rw [ex_run, ei]
  decide

end Ebpf.PinWalk
