import Verif.Model.Associate
import Verif.Spec.Associate
import Verif.Props.Program
/-!
# C111: maps by symbol, symbols, references and tags of a program
-/
namespace Ebpf.Asm.Assoc
open Ebpf.Asm Ebpf.Asm.AssocSpec OpCode

/-! ## AssociateMap -/

/-- What the loop does to one instruction. -/
def upd (sym : String) (m : Int) (i : PIns) : PIns := if i.ref = sym then { i with ref := "", map := some m } else i

theorem linked_iff (sym : String) (m : Int) (i j : PIns) : Linked sym m i j ↔ j = upd sym m i := by
  unfold Linked upd
  by_cases h : i.ref = sym
  · rw [if_pos h]
    obtain ⟨a, b, c, d⟩ := i
    obtain ⟨a', b', c', d'⟩ := j
    simp_all
  · rw [if_neg h]
    simp [h]

theorem pointwise_map (R : PIns → PIns → Prop) (f : PIns → PIns) (h : ∀ i j, R i j ↔ j = f i) : ∀ p q, Pointwise R p q ↔ q = p.map f
  | [], q => by
    constructor
    · intro h; cases h; rfl
    · rintro rfl; exact .nil
  | i :: p, q => by
    constructor
    · intro hp
      cases hp with
      | cons h1 h2 => rw [List.map_cons, (h _ _).1 h1, (pointwise_map R f h _ _).1 h2]
    · rintro rfl
      exact .cons ((h _ _).2 rfl) ((pointwise_map R f h _ _).2 rfl)

theorem mapLoad_iff (i : Ins) : MapLoad i ↔ i.isLoadFromMap = true := (isLoadFromMap_iff i).symm

theorem loop_ok (sym : String) (m : Int) : ∀ (p : List PIns) (found : Bool), (∀ i ∈ p, i.ref = sym → MapLoad i.ins) →
    loop sym m p found = (p.map (upd sym m), .ok (found || p.any (fun i => i.ref == sym)))
  | [], found, _ => by simp [loop]
  | i :: r, found, h => by
    have ih := fun f => loop_ok sym m r f (fun x hx => h x (by simp [hx]))
    unfold loop
    by_cases hr : i.ref = sym
    · have := (mapLoad_iff _).1 (h i (by simp) hr)
      simp only [hr, ne_eq, not_true_eq_false, if_false, associateOne, this, if_true, ih]
      simp [upd, hr]
    · simp only [ne_eq, hr, not_false_eq_true, if_true, ih]
      have hb : (i.ref == sym) = false := beq_eq_false_iff_ne.2 hr
      simp [upd, hr, hb]

theorem loop_bad (sym : String) (m : Int) (b : PIns) (c : List PIns) (hb : b.ref = sym) (hl : ¬ MapLoad b.ins) : ∀ (a : List PIns) (found : Bool),
    (∀ i ∈ a, i.ref = sym → MapLoad i.ins) → loop sym m (a ++ b :: c) found = (a.map (upd sym m) ++ b :: c, .error .notLoad)
  | [], found, _ => by
    have : b.ins.isLoadFromMap = false := by
      cases h : b.ins.isLoadFromMap with
      | false => rfl
      | true => exact absurd ((mapLoad_iff _).2 h) hl
    simp [loop, hb, associateOne, this]
  | i :: r, found, h => by
    have ih := fun f => loop_bad sym m b c hb hl r f (fun x hx => h x (by simp [hx]))
    rw [List.cons_append]
    unfold loop
    by_cases hr : i.ref = sym
    · have := (mapLoad_iff _).1 (h i (by simp) hr)
      simp only [hr, ne_eq, not_true_eq_false, if_false, associateOne, this, if_true, ih]
      simp [upd, hr]
    · simp only [ne_eq, hr, not_false_eq_true, if_true, ih]
      simp [upd, hr]

theorem first_bad (sym : String) (p : List PIns) : (∀ i ∈ p, i.ref = sym → MapLoad i.ins) ∨
    ∃ a b c, p = a ++ b :: c ∧ (∀ i ∈ a, i.ref = sym → MapLoad i.ins) ∧ b.ref = sym ∧ ¬ MapLoad b.ins := by
  induction p with
  | nil => exact Or.inl (by simp)
  | cons i r ih =>
    by_cases h : i.ref = sym → MapLoad i.ins
    · rcases ih with ih | ⟨a, b, c, rfl, h1, h2, h3⟩
      · left
        intro x hx
        rcases List.mem_cons.1 hx with rfl | hx
        · exact h
        · exact ih x hx
      · right
        refine ⟨i :: a, b, c, rfl, ?_, h2, h3⟩
        intro x hx
        rcases List.mem_cons.1 hx with rfl | hx
        · exact h
        · exact h1 x hx
    · right
      simp only [Classical.not_imp] at h
      exact ⟨[], i, r, rfl, by simp, h.1, h.2⟩

/-- **C111, AssociateMap.** It succeeds iff the symbol isn't empty, an instruction refers to it and all that do are loads of maps; then exactly those have the map, and
no reference any more. -/
theorem associate_exact (sym : String) (m : Int) (p q : List PIns) : associateMap sym m p = (q, none) ↔
    sym ≠ "" ∧ (∃ i ∈ p, i.ref = sym) ∧ (∀ i ∈ p, i.ref = sym → MapLoad i.ins) ∧ Pointwise (Linked sym m) p q := by
  rw [pointwise_map _ _ (linked_iff sym m)]
  unfold associateMap
  by_cases hs : sym = ""
  · rw [if_pos hs]
    constructor
    · intro h; cases h
    · intro h; exact absurd hs h.1
  rw [if_neg hs]
  rcases first_bad sym p with h | ⟨a, b, c, rfl, h1, h2, h3⟩
  · rw [loop_ok sym m p false h]
    simp only [Bool.false_or]
    by_cases hex : ∃ i ∈ p, i.ref = sym
    · rw [if_pos (by simpa using hex)]
      constructor
      · intro e; injection e with e; exact ⟨hs, hex, h, e.symm⟩
      · rintro ⟨_, _, _, rfl⟩; rfl
    · rw [if_neg (by simpa using hex)]
      constructor
      · intro e; cases e
      · intro e; exact absurd e.2.1 hex
  · rw [loop_bad sym m b c h2 h3 a false h1]
    constructor
    · intro e; cases e
    · intro e; exact absurd (e.2.2.1 b (by simp) h2) h3

/-- **C111, errors of AssociateMap.** The error is ErrUnreferencedSymbol iff no instruction refers to the symbol, and then nothing is changed. -/
theorem associate_unreferenced (sym : String) (m : Int) (p q : List PIns) : associateMap sym m p = (q, some .unreferenced) ↔
    sym ≠ "" ∧ (∀ i ∈ p, i.ref ≠ sym) ∧ q = p := by
  unfold associateMap
  by_cases hs : sym = ""
  · rw [if_pos hs]
    constructor
    · intro h; cases h
    · intro h; exact absurd hs h.1
  rw [if_neg hs]
  rcases first_bad sym p with h | ⟨a, b, c, rfl, h1, h2, h3⟩
  · rw [loop_ok sym m p false h]
    simp only [Bool.false_or]
    by_cases hex : ∃ i ∈ p, i.ref = sym
    · rw [if_pos (by simpa using hex)]
      obtain ⟨i, hi, hr⟩ := hex
      constructor
      · intro e; cases e
      · intro e; exact absurd hr (e.2.1 i hi)
    · rw [if_neg (by simpa using hex)]
      have hn : ∀ i ∈ p, i.ref ≠ sym := fun i hi hr => hex ⟨i, hi, hr⟩
      have hm : p.map (upd sym m) = p := by
        conv => rhs; rw [← List.map_id p]
        apply List.map_congr_left
        intro i hi
        unfold upd
        rw [if_neg (hn i hi)]; rfl
      rw [hm]
      constructor
      · intro e; injection e with e; exact ⟨hs, hn, e.symm⟩
      · rintro ⟨_, _, rfl⟩; rfl
  · rw [loop_bad sym m b c h2 h3 a false h1]
    constructor
    · intro e; cases e
    · intro e; exact absurd h2 (e.2.1 b (by simp))

/-- **C111, AssociateMap of something else.** If an instruction refers to the symbol and isn't a load of a map, that is the error; it and what follows are left alone, but
what precedes the first such instruction has been changed. -/
theorem associate_notLoad (sym : String) (m : Int) (p q : List PIns) : associateMap sym m p = (q, some .notLoad) ↔
    sym ≠ "" ∧ ∃ a a' b c, p = a ++ b :: c ∧ q = a' ++ b :: c ∧ b.ref = sym ∧ ¬ MapLoad b.ins ∧ (∀ i ∈ a, i.ref = sym → MapLoad i.ins) ∧
      Pointwise (Linked sym m) a a' := by
  unfold associateMap
  by_cases hs : sym = ""
  · rw [if_pos hs]
    constructor
    · intro h; cases h
    · intro h; exact absurd hs h.1
  rw [if_neg hs]
  constructor
  · intro h
    refine ⟨hs, ?_⟩
    rcases first_bad sym p with h0 | ⟨a, b, c, rfl, h1, h2, h3⟩
    · rw [loop_ok sym m p false h0] at h
      dsimp only at h
      split at h <;> cases h
    · rw [loop_bad sym m b c h2 h3 a false h1] at h
      injection h with h _
      exact ⟨a, _, b, c, rfl, h.symm, h2, h3, h1, (pointwise_map _ _ (linked_iff sym m) _ _).2 rfl⟩
  · rintro ⟨_, a, a', b, c, rfl, rfl, h2, h3, h1, hp⟩
    rw [loop_bad sym m b c h2 h3 a false h1, (pointwise_map _ _ (linked_iff sym m) _ _).1 hp]

/-- The empty symbol is refused, and nothing is changed. -/
theorem associate_empty (m : Int) (p : List PIns) : associateMap "" m p = (p, some .empty) := rfl

/-- **C111, twice.** A symbol can be given a map once. -/
theorem associate_twice (sym : String) (m m' : Int) (p q : List PIns) (h : associateMap sym m p = (q, none)) :
    associateMap sym m' q = (q, some .unreferenced) := by
  obtain ⟨hs, _, _, hq⟩ := (associate_exact sym m p q).1 h
  rw [associate_unreferenced]
  refine ⟨hs, ?_, rfl⟩
  rw [(pointwise_map _ _ (linked_iff sym m) _ _).1 hq]
  intro i hi
  obtain ⟨x, _, rfl⟩ := List.mem_map.1 hi
  unfold upd
  split
  · exact fun e => hs e.symm
  · assumption

/-- **C111, order.** Two symbols can be given their maps in any order. -/
theorem associate_order (s t : String) (m n : Int) (p q r : List PIns) (hne : s ≠ t) (h1 : associateMap s m p = (q, none)) (h2 : associateMap t n q = (r, none)) :
    ∃ q', associateMap t n p = (q', none) ∧ associateMap s m q' = (r, none) := by
  obtain ⟨hs, ⟨i, hi, hir⟩, hsl, hq⟩ := (associate_exact _ _ _ _).1 h1
  obtain ⟨ht, ⟨j, hj, hjr⟩, htl, hr⟩ := (associate_exact _ _ _ _).1 h2
  have eq := (pointwise_map _ _ (linked_iff s m) _ _).1 hq
  have er := (pointwise_map _ _ (linked_iff t n) _ _).1 hr
  have comm : ∀ x, upd t n (upd s m x) = upd s m (upd t n x) := by
    intro x
    unfold upd
    by_cases a : x.ref = s
    · have b : ¬ x.ref = t := fun b => hne (a.symm.trans b)
      have c : ¬ ("" = t) := fun c => ht c.symm
      simp only [a, c, hne, if_true, if_false]
    · by_cases b : x.ref = t
      · have c : ¬ ("" = s) := fun c => hs c.symm
        have d : ¬ t = s := fun d => hne d.symm
        simp only [b, c, d, if_true, if_false]
      · simp only [a, b, if_false]
  have refs : ∀ x, (upd s m x).ref = t → x.ref = t ∧ upd s m x = x := by
    intro x hx
    unfold upd at hx ⊢
    split at hx
    · exact absurd hx.symm ht
    · next h => exact ⟨hx, if_neg h⟩
  refine ⟨p.map (upd t n), (associate_exact _ _ _ _).2 ⟨ht, ?_, ?_, (pointwise_map _ _ (linked_iff t n) _ _).2 rfl⟩,
    (associate_exact _ _ _ _).2 ⟨hs, ?_, ?_, (pointwise_map _ _ (linked_iff s m) _ _).2 ?_⟩⟩
  · rw [eq] at hj
    obtain ⟨x, hx, rfl⟩ := List.mem_map.1 hj
    exact ⟨x, hx, (refs x hjr).1⟩
  · intro x hx hxr
    have hu : upd s m x = x := by
      unfold upd; rw [if_neg (fun e => hne (e.symm.trans hxr))]
    exact htl x (by rw [eq]; exact List.mem_map.2 ⟨x, hx, hu⟩) hxr
  · refine ⟨i, List.mem_map.2 ⟨i, hi, ?_⟩, hir⟩
    unfold upd; rw [if_neg (fun e => hne (hir.symm.trans e))]
  · intro x hx hxr
    obtain ⟨y, hy, rfl⟩ := List.mem_map.1 hx
    unfold upd at hxr ⊢
    split at hxr
    · exact absurd hxr.symm hs
    · next h => rw [if_neg h]; exact hsl y hy hxr
  · rw [er, eq, List.map_map, List.map_map]
    apply List.map_congr_left
    intro x _
    exact comm x

/-- Associating maps with symbols, one after the other. -/
def associateAll : List (String × Int) → List PIns → Option (List PIns)
  | [], p => some p
  | (s, m) :: r, p =>
    match associateMap s m p with
    | (q, none) => associateAll r q
    | (_, some _) => none

/-- **C111, all maps.** After maps have been associated with several symbols, every instruction that referred to one of them has its map, and all others are as before. -/
theorem associate_all : ∀ (l : List (String × Int)) (p q : List PIns), associateAll l p = some q →
    (l.map (·.1)).Nodup ∧ q.length = p.length ∧ ∀ (n : Nat) (i : PIns), p[n]? = some i →
      ((∀ m, (i.ref, m) ∉ l) ∧ q[n]? = some i) ∨ ∃ m, (i.ref, m) ∈ l ∧ MapLoad i.ins ∧ q[n]? = some { i with ref := "", map := some m }
  | [], p, q, h => by
    simp only [associateAll, Option.some.injEq] at h
    subst h
    exact ⟨by simp, rfl, fun n i hi => Or.inl ⟨by simp, hi⟩⟩
  | (s, m) :: r, p, q, h => by
    unfold associateAll at h
    split at h
    · next q0 h0 =>
      obtain ⟨hs, _, hl, hq⟩ := (associate_exact _ _ _ _).1 h0
      have e0 := (pointwise_map _ _ (linked_iff s m) _ _).1 hq
      obtain ⟨r1, r2, r3⟩ := associate_all r q0 q h
      have gone : ∀ i ∈ q0, i.ref ≠ s := ((associate_unreferenced s m q0 q0).1 (associate_twice s m m p q0 h0)).2.1
      have notin : s ∉ r.map (·.1) := by
        intro hin
        -- the symbol would have to be referred to again
        have : ∀ (l : List (String × Int)) (a b : List PIns), associateAll l a = some b → (∀ i ∈ a, i.ref ≠ s) → s ∉ l.map (·.1) := by
          intro l
          induction l with
          | nil => intro _ _ _ _ h; cases h
          | cons x l ih =>
            obtain ⟨t, n⟩ := x
            intro a b hab ha hmem
            unfold associateAll at hab
            split at hab
            · next a1 h1 =>
              obtain ⟨ht, ⟨i, hi, hir⟩, _, hq1⟩ := (associate_exact _ _ _ _).1 h1
              rw [List.map_cons, List.mem_cons] at hmem
              rcases hmem with e | hmem
              · dsimp only at e; subst e; exact ha i hi hir
              · refine ih a1 b hab ?_ hmem
                rw [(pointwise_map _ _ (linked_iff t n) _ _).1 hq1]
                intro j hj
                obtain ⟨x, hx, rfl⟩ := List.mem_map.1 hj
                unfold upd
                split
                · exact fun e => hs e.symm
                · exact ha x hx
            · cases hab
        exact this r q0 q h gone hin
      refine ⟨?_, by rw [r2, e0, List.length_map], ?_⟩
      · rw [List.map_cons, List.nodup_cons]; exact ⟨notin, r1⟩
      · intro n i hi
        have hget : q0[n]? = some (upd s m i) := by rw [e0, List.getElem?_map, hi]; rfl
        have hmem : i ∈ p := List.mem_of_getElem? hi
        by_cases hr : i.ref = s
        · right
          refine ⟨m, by rw [hr]; simp, hl i hmem hr, ?_⟩
          have hu : upd s m i = { i with ref := "", map := some m } := by unfold upd; rw [if_pos hr]
          rw [hu] at hget
          rcases r3 n _ hget with ⟨_, h1⟩ | ⟨m', h1, _, _⟩
          · exact h1
          · exfalso
            -- no map can be associated with the empty symbol
            have : ∀ (l : List (String × Int)) (a b : List PIns), associateAll l a = some b → "" ∉ l.map (·.1) := by
              intro l
              induction l with
              | nil => intro _ _ _ h; cases h
              | cons x l ih =>
                obtain ⟨t, k⟩ := x
                intro a b hab hmem
                unfold associateAll at hab
                split at hab
                · next a1 h1 =>
                  rw [List.map_cons, List.mem_cons] at hmem
                  rcases hmem with e | hmem
                  · exact ((associate_exact _ _ _ _).1 h1).1 e.symm
                  · exact ih a1 b hab hmem
                · cases hab
            exact this r q0 q h (List.mem_map.2 ⟨_, h1, rfl⟩)
        · have hu : upd s m i = i := by unfold upd; rw [if_neg hr]
          rw [hu] at hget
          rcases r3 n i hget with ⟨h1, h2⟩ | ⟨m', h1, h2, h3⟩
          · left
            refine ⟨?_, h2⟩
            intro m' hm'
            rcases List.mem_cons.1 hm' with e | hm'
            · injection e with e _; exact hr e
            · exact h1 m' hm'
          · right
            exact ⟨m', by simp [h1], h2, h3⟩
    · cases h
/-! ## SymbolOffsets -/

theorem lookup_cons_iff (s k : String) (v : Nat) (l : List (String × Nat)) :
    ((k, v) :: l).lookup s = if s = k then some v else l.lookup s := by
  by_cases h : s = k
  · subst h; simp
  · rw [if_neg h, List.lookup_cons, beq_eq_false_iff_ne.2 h]

/-- What the map holds after the instructions before the current one. -/
def Indexed (a : List PIns) (acc : List (String × Nat)) : Prop :=
  ∀ s n, acc.lookup s = some n ↔ s ≠ "" ∧ ∃ i, a[n]? = some i ∧ i.sym = s

theorem indexed_snoc (a : List PIns) (acc : List (String × Nat)) (i : PIns) (hi : Indexed a acc) (hs : i.sym ≠ "") (hn : acc.lookup i.sym = none) :
    Indexed (a ++ [i]) ((i.sym, a.length) :: acc) := by
  intro s n
  rw [lookup_cons_iff]
  by_cases h : s = i.sym
  · subst h
    rw [if_pos rfl]
    constructor
    · intro e; injection e with e; subst e
      exact ⟨hs, i, by simp, rfl⟩
    · rintro ⟨_, j, hj, hjs⟩
      rw [List.getElem?_append] at hj
      split at hj
      · have := (hi i.sym n).2 ⟨hs, j, hj, hjs⟩
        rw [hn] at this; cases this
      · have : n - a.length < [i].length := (List.getElem?_eq_some_iff.1 hj).1
        simp at this
        congr 1; omega
  · rw [if_neg h, hi s n]
    constructor
    · rintro ⟨h1, j, hj, hjs⟩
      refine ⟨h1, j, ?_, hjs⟩
      rw [List.getElem?_append_left (List.getElem?_eq_some_iff.1 hj).1]; exact hj
    · rintro ⟨h1, j, hj, hjs⟩
      refine ⟨h1, j, ?_, hjs⟩
      rw [List.getElem?_append] at hj
      split at hj
      · exact hj
      · exfalso
        have hlt : n - a.length < [i].length := (List.getElem?_eq_some_iff.1 hj).1
        simp at hlt
        rw [show n - a.length = 0 by omega] at hj
        simp at hj; subst hj
        exact h hjs.symm

theorem indexed_skip (a : List PIns) (acc : List (String × Nat)) (i : PIns) (hi : Indexed a acc) (hs : i.sym = "") : Indexed (a ++ [i]) acc := by
  intro s n
  rw [hi s n]
  constructor
  · rintro ⟨h1, j, hj, hjs⟩
    refine ⟨h1, j, ?_, hjs⟩
    rw [List.getElem?_append_left (List.getElem?_eq_some_iff.1 hj).1]; exact hj
  · rintro ⟨h1, j, hj, hjs⟩
    refine ⟨h1, j, ?_, hjs⟩
    rw [List.getElem?_append] at hj
    split at hj
    · exact hj
    · exfalso
      have hlt : n - a.length < [i].length := (List.getElem?_eq_some_iff.1 hj).1
      simp at hlt
      rw [show n - a.length = 0 by omega] at hj
      simp at hj; subst hj
      exact h1 (hjs.symm.trans hs)

theorem indexed_distinct (a : List PIns) (acc : List (String × Nat)) (hi : Indexed a acc) : DistinctSymbols a := by
  intro x y i j hx hy he hne
  have h1 := (hi i.sym x).2 ⟨hne, i, hx, rfl⟩
  have h2 := (hi i.sym y).2 ⟨hne, j, hy, he.symm⟩
  rw [h1] at h2
  injection h2

theorem symbolIndices_correct : ∀ (r a : List PIns) (acc : List (String × Nat)), Indexed a acc →
    (∀ m, symbolIndices r a.length acc = some m → Indexed (a ++ r) m) ∧ (symbolIndices r a.length acc = none → ¬ DistinctSymbols (a ++ r))
  | [], a, acc, hi => by
    refine ⟨?_, ?_⟩
    · intro m h
      simp only [symbolIndices, Option.some.injEq] at h
      subst h
      rw [List.append_nil]; exact hi
    · intro h; simp [symbolIndices] at h
  | i :: r, a, acc, hi => by
    have ea : a ++ i :: r = (a ++ [i]) ++ r := by simp
    have el : a.length + 1 = (a ++ [i]).length := by simp
    unfold symbolIndices
    by_cases hs : i.sym = ""
    · rw [if_pos hs, ea, el]
      exact symbolIndices_correct r (a ++ [i]) acc (indexed_skip a acc i hi hs)
    · rw [if_neg hs]
      cases hl : acc.lookup i.sym with
      | some n =>
        simp only [Option.isSome_some, if_true]
        refine ⟨fun m h => (by cases h), fun _ hd => ?_⟩
        obtain ⟨_, j, hj, hjs⟩ := (hi _ _).1 hl
        have hlt := (List.getElem?_eq_some_iff.1 hj).1
        have := hd n a.length j i (by rw [List.getElem?_append_left hlt]; exact hj) (by simp) hjs (by rw [hjs]; exact hs)
        omega
      | none =>
        simp only [Option.isSome_none, Bool.false_eq_true, if_false]
        rw [ea, el]
        exact symbolIndices_correct r (a ++ [i]) _ (indexed_snoc a acc i hi hs hl)

/-- **C111, SymbolOffsets.** It fails iff two instructions have the same symbol. -/
theorem symbolOffsets_fails (p : List PIns) : symbolIndices p 0 [] = none ↔ ¬ DistinctSymbols p := by
  have h0 : Indexed [] [] := by intro s n; simp
  obtain ⟨h1, h2⟩ := symbolIndices_correct p [] [] h0
  simp only [List.nil_append, List.length_nil] at h1 h2
  refine ⟨h2, fun h => ?_⟩
  cases hr : symbolIndices p 0 [] with
  | none => rfl
  | some m => exact absurd (indexed_distinct p m (h1 m hr)) h

/-- **C111, SymbolOffsets.** The result maps exactly the symbols of the instructions, each to the index of the instruction that has it. -/
theorem symbolOffsets_exact (p : List PIns) (m : List (String × Nat)) (h : symbolIndices p 0 [] = some m) :
    DistinctSymbols p ∧ ∀ s n, m.lookup s = some n ↔ s ≠ "" ∧ ∃ i, p[n]? = some i ∧ i.sym = s := by
  have h0 : Indexed [] [] := by intro s n; simp
  have h1 := (symbolIndices_correct p [] [] h0).1
  simp only [List.nil_append, List.length_nil] at h1
  exact ⟨indexed_distinct p m (h1 m h), h1 m h⟩

/-! ## ReferenceOffsets -/

/-- The instructions from `n` on that refer to `s`. -/
def refsOf (s : String) : List PIns → Nat → List Nat
  | [], _ => []
  | i :: r, n => if i.ref = s then n :: refsOf s r (n + 1) else refsOf s r (n + 1)

theorem refsOf_mem (s : String) : ∀ (p : List PIns) (n k : Nat), k ∈ refsOf s p n ↔ n ≤ k ∧ ∃ i, p[k - n]? = some i ∧ i.ref = s
  | [], n, k => by simp [refsOf]
  | i :: r, n, k => by
    have ih := refsOf_mem s r (n + 1) k
    have hc : (k ∈ refsOf s (i :: r) n) ↔ ((i.ref = s ∧ k = n) ∨ k ∈ refsOf s r (n + 1)) := by
      rw [refsOf]
      split
      · next h => simp [h]
      · next h => simp [h]
    rw [hc, ih]
    constructor
    · rintro (⟨h, rfl⟩ | ⟨h1, j, hj, hjs⟩)
      · exact ⟨Nat.le_refl _, i, by simp, h⟩
      · refine ⟨by omega, j, ?_, hjs⟩
        rw [show k - n = (k - (n + 1)) + 1 by omega, List.getElem?_cons_succ]; exact hj
    · rintro ⟨h1, j, hj, hjs⟩
      by_cases hk : k = n
      · left
        subst hk
        simp at hj; subst hj
        exact ⟨hjs, rfl⟩
      · right
        refine ⟨by omega, j, ?_, hjs⟩
        rw [show k - n = (k - (n + 1)) + 1 by omega, List.getElem?_cons_succ] at hj; exact hj

theorem refsOf_sorted (s : String) : ∀ (p : List PIns) (n : Nat), (refsOf s p n).Pairwise (· < ·)
  | [], n => by simp [refsOf]
  | i :: r, n => by
    rw [refsOf]
    split
    · refine List.pairwise_cons.2 ⟨?_, refsOf_sorted s r (n + 1)⟩
      intro k hk
      have := ((refsOf_mem s r (n + 1) k).1 hk).1
      omega
    · exact refsOf_sorted s r (n + 1)

theorem addRef_lookup (k s : String) (n : Nat) : ∀ l, (addRef k n l).lookup s = if s = k then some ((l.lookup s).getD [] ++ [n]) else l.lookup s
  | [] => by
    rw [addRef]
    by_cases h : s = k
    · subst h; simp
    · rw [if_neg h, List.lookup_cons, beq_eq_false_iff_ne.2 h]
  | (k', l') :: r => by
    have ih := addRef_lookup k s n r
    rw [addRef]
    by_cases hk : k' = k
    · subst hk
      rw [if_pos rfl]
      by_cases h : s = k'
      · subst h; simp
      · rw [if_neg h, List.lookup_cons, beq_eq_false_iff_ne.2 h, List.lookup_cons, beq_eq_false_iff_ne.2 h]
    · rw [if_neg hk]
      by_cases h : s = k'
      · subst h
        rw [if_neg hk]; simp
      · rw [List.lookup_cons, beq_eq_false_iff_ne.2 h, List.lookup_cons, beq_eq_false_iff_ne.2 h, ih]

theorem referenceOffsets_lookup (s : String) (hs : s ≠ "") : ∀ (p : List PIns) (n : Nat) (acc : List (String × List Nat)),
    (referenceOffsets p n acc).lookup s = if refsOf s p n = [] then acc.lookup s else some ((acc.lookup s).getD [] ++ refsOf s p n)
  | [], n, acc => by simp [referenceOffsets, refsOf]
  | i :: r, n, acc => by
    have ih := referenceOffsets_lookup s hs r (n + 1)
    rw [referenceOffsets, refsOf]
    by_cases h0 : i.ref = ""
    · have h1 : ¬ i.ref = s := fun e => hs (e.symm.trans h0)
      rw [if_pos h0, if_neg h1, ih]
    · rw [if_neg h0, ih, addRef_lookup]
      by_cases h1 : i.ref = s
      · have h2 : s = i.ref := h1.symm
        rw [if_pos h1, if_pos h2]
        by_cases he : refsOf s r (n + 1) = []
        · simp [he]
        · simp [he]
      · have h2 : ¬ s = i.ref := fun e => h1 e.symm
        rw [if_neg h1, if_neg h2]

theorem referenceOffsets_empty : ∀ (p : List PIns) (n : Nat) (acc : List (String × List Nat)),
    acc.lookup "" = none → (referenceOffsets p n acc).lookup "" = none
  | [], n, acc, h => h
  | i :: r, n, acc, h => by
    rw [referenceOffsets]
    by_cases h0 : i.ref = ""
    · rw [if_pos h0]; exact referenceOffsets_empty r _ _ h
    · rw [if_neg h0]
      refine referenceOffsets_empty r _ _ ?_
      rw [addRef_lookup, if_neg (fun e => h0 e.symm)]; exact h

/-- **C111, ReferenceOffsets.** The result maps exactly the symbols instructions refer to, each to the indices of all instructions that do, in ascending order. -/
theorem referenceOffsets_exact (p : List PIns) (s : String) (l : List Nat) : (referenceOffsets p 0 []).lookup s = some l ↔
    s ≠ "" ∧ l ≠ [] ∧ l.Pairwise (· < ·) ∧ ∀ n, n ∈ l ↔ ∃ i, p[n]? = some i ∧ i.ref = s := by
  by_cases hs : s = ""
  · subst hs
    rw [referenceOffsets_empty p 0 [] rfl]
    constructor
    · intro h; cases h
    · intro h; exact absurd rfl h.1
  rw [referenceOffsets_lookup s hs]
  have hm : ∀ n, n ∈ refsOf s p 0 ↔ ∃ i, p[n]? = some i ∧ i.ref = s := by
    intro n
    rw [refsOf_mem]; simp
  constructor
  · intro h
    split at h
    · cases h
    · next hne =>
      simp only [List.lookup_nil, Option.getD_none, List.nil_append, Option.some.injEq] at h
      subst h
      exact ⟨hs, hne, refsOf_sorted s p 0, hm⟩
  · rintro ⟨_, hne, hp, hl⟩
    have e : l = refsOf s p 0 := by
      have nd1 : l.Nodup := hp.imp (fun h => Nat.ne_of_lt h)
      have nd2 : (refsOf s p 0).Nodup := (refsOf_sorted s p 0).imp (fun h => Nat.ne_of_lt h)
      have hperm : l.Perm (refsOf s p 0) := (List.perm_ext_iff_of_nodup nd1 nd2).2 (fun n => (hl n).trans (hm n).symm)
      exact hperm.eq_of_pairwise (fun a b _ _ h1 h2 => by omega) hp (refsOf_sorted s p 0)
    subst e
    rw [if_neg hne]; simp

/-- A lookup of no instruction is no entry. -/
theorem referenceOffsets_none (p : List PIns) (s : String) : (referenceOffsets p 0 []).lookup s = none ↔ s = "" ∨ ∀ i ∈ p, i.ref ≠ s := by
  by_cases hs : s = ""
  · subst hs
    rw [referenceOffsets_empty p 0 [] rfl]; simp
  rw [referenceOffsets_lookup s hs]
  constructor
  · intro h
    split at h
    · next he =>
      right
      intro i hi hr
      obtain ⟨n, hn⟩ := List.mem_iff_getElem?.1 hi
      have : n ∈ refsOf s p 0 := (refsOf_mem s p 0 n).2 ⟨Nat.zero_le _, i, by simpa using hn, hr⟩
      rw [he] at this; cases this
    · cases h
  · rintro (h | h)
    · exact absurd h hs
    · rw [if_pos]; · rfl
      cases he : refsOf s p 0 with
      | nil => rfl
      | cons n t =>
        obtain ⟨_, i, hi, hr⟩ := (refsOf_mem s p 0 n).1 (by rw [he]; simp)
        exact absurd hr (h i (List.mem_of_getElem? hi))

/-- **C111, the name** of a program is the symbol of its first instruction. -/
theorem name_exact (p : List PIns) (s : String) : name p = s ↔ (p = [] ∧ s = "") ∨ ∃ i r, p = i :: r ∧ i.sym = s := by
  cases p with
  | nil => simp [name, eq_comm]
  | cons i r => simp [name]

/-! ## Tags -/

theorem hexDigit_digits : ∀ n, n < 16 → digits[n]? = some (hexDigit n) := by decide

theorem hex_iff : ∀ b t, Hex b t ↔ t = hex b
  | [], t => by
    constructor
    · intro h; cases h; rfl
    · rintro rfl; exact .nil
  | c :: b, t => by
    have h1 := hexDigit_digits (c.toNat / 16) (by have := c.isLt; omega)
    have h2 := hexDigit_digits (c.toNat % 16) (by omega)
    have e : hex (c :: b) = hexDigit (c.toNat / 16) :: hexDigit (c.toNat % 16) :: hex b := rfl
    rw [e]
    constructor
    · intro h
      cases h with
      | cons a1 a2 a3 =>
        rw [h1] at a1; rw [h2] at a2
        injection a1 with a1; injection a2 with a2
        subst a1; subst a2
        rw [(hex_iff b _).1 a3]
    · rintro rfl
      exact .cons h1 h2 ((hex_iff b _).2 rfl)

theorem hashed_iff (native : String) (bo : ByteOrder) (p : List PIns) (r : Except AsmErr Bytes) :
    Hashed native bo p r ↔ r = hashInput native bo (p.map (·.ins)) := by
  rw [tag_input_exact]
  constructor
  · rintro ⟨q, rfl, hl, h⟩
    congr 1
    apply List.ext_getElem?
    intro n
    rw [List.map_map, List.getElem?_map]
    cases hn : p[n]? with
    | none =>
      rw [List.getElem?_eq_none_iff] at hn
      rw [Option.map_none, List.getElem?_eq_none_iff]; omega
    | some i =>
      obtain ⟨j, hj, hcase⟩ := h n i hn
      rw [hj]
      simp only [Option.map_some, Function.comp, Option.some.injEq]
      rcases hcase with ⟨h1, h2⟩ | ⟨h1, h2⟩
      · exact h2.trans (if_pos h1).symm
      · exact h2.trans (if_neg h1).symm
  · rintro rfl
    refine ⟨_, rfl, by simp, ?_⟩
    intro n i hn
    rw [List.map_map, List.getElem?_map, hn]
    refine ⟨_, rfl, ?_⟩
    by_cases h : MapLoad i.ins
    · left; refine ⟨h, ?_⟩
      simp only [Function.comp]
      exact if_pos h
    · right; refine ⟨h, ?_⟩
      simp only [Function.comp]
      exact if_neg h

theorem tagWith_ok (h : Bytes → Bytes) (native : String) (bo : ByteOrder) (p : List PIns) (t : Bytes) :
    tagWith h native bo p = .ok t ↔ ∃ b, Hashed native bo p (.ok b) ∧ Hex ((h b).take 8) t := by
  simp only [hashed_iff, hex_iff]
  unfold tagWith
  cases hashInput native bo (p.map (·.ins)) with
  | error e => simp
  | ok b => simp [eq_comm]

theorem tagWith_error (h : Bytes → Bytes) (native : String) (bo : ByteOrder) (p : List PIns) (e : AsmErr) :
    tagWith h native bo p = .error e ↔ Hashed native bo p (.error e) := by
  rw [hashed_iff]
  unfold tagWith
  cases hashInput native bo (p.map (·.ins)) with
  | error e => simp [eq_comm]
  | ok b => simp

/-- **C111, Tag.** The tag is the first eight bytes of the SHA-1 of the instructions, in base 16, with descriptors and offsets in loads of maps taken as 0. -/
theorem tag_exact (sha1 : Bytes → Bytes) (native : String) (bo : ByteOrder) (p : List PIns) (t : Bytes) :
    tag sha1 native bo p = .ok t ↔ ∃ b, Hashed native bo p (.ok b) ∧ Hex ((sha1 b).take 8) t := tagWith_ok sha1 native bo p t

/-- **C111, HasTag.** A tag matches iff it is that of the SHA-256 (kernels since 6.18) or that of the SHA-1. -/
theorem hasTag_exact (sha1 sha256 : Bytes → Bytes) (native : String) (bo : ByteOrder) (p : List PIns) (t : Bytes) (r : Bool) :
    hasTag sha1 sha256 native bo p t = .ok r ↔ ∃ b, Hashed native bo p (.ok b) ∧ (r = true ↔ Hex ((sha256 b).take 8) t ∨ Hex ((sha1 b).take 8) t) := by
  simp only [hashed_iff, hex_iff]
  unfold hasTag tagWith
  cases hashInput native bo (p.map (·.ins)) with
  | error e => simp
  | ok b =>
    simp only [Except.ok.injEq]
    by_cases h : t = hex ((sha256 b).take 8)
    · rw [if_pos h]
      cases r <;> simp [← h]
    · rw [if_neg h]
      cases r <;> simp [h]

/-- **C111, HasTag, errors.** Both fail iff an instruction can't be encoded, and with the error of that. -/
theorem hasTag_error (sha1 sha256 : Bytes → Bytes) (native : String) (bo : ByteOrder) (p : List PIns) (t : Bytes) (e : AsmErr) :
    (hasTag sha1 sha256 native bo p t = .error e ↔ Hashed native bo p (.error e)) ∧ (tag sha1 native bo p = .error e ↔ Hashed native bo p (.error e)) := by
  refine ⟨?_, tagWith_error sha1 native bo p e⟩
  rw [hashed_iff]
  unfold hasTag tagWith
  cases hashInput native bo (p.map (·.ins)) with
  | error e => simp [eq_comm]
  | ok b =>
    simp only
    split <;> simp

/-- **C111, own tag.** A program has its own tag. -/
theorem hasTag_tag (sha1 sha256 : Bytes → Bytes) (native : String) (bo : ByteOrder) (p : List PIns) (t : Bytes) (h : tag sha1 native bo p = .ok t) :
    hasTag sha1 sha256 native bo p t = .ok true := by
  obtain ⟨b, hb, hx⟩ := (tag_exact sha1 native bo p t).1 h
  exact (hasTag_exact sha1 sha256 native bo p t true).2 ⟨b, hb, by simp [hx]⟩

theorem hashed_unique (native : String) (bo : ByteOrder) (p : List PIns) (r r' : Except AsmErr Bytes) (h : Hashed native bo p r) (h' : Hashed native bo p r') : r = r' := by
  rw [hashed_iff] at h h'
  rw [h, h']

theorem hex_unique (b t t' : Bytes) (h : Hex b t) (h' : Hex b t') : t = t' := by
  rw [hex_iff] at h h'
  rw [h, h']

theorem hex_injective : ∀ (b b' t : Bytes), Hex b t → Hex b' t → b = b'
  | [], b', t, h, h' => by cases h; cases h'; rfl
  | c :: b, b', t, h, h' => by
    have inj : ∀ m n, m < 16 → n < 16 → digits[m]? = digits[n]? → m = n := by
      have : ∀ m : Fin 16, ∀ n : Fin 16, digits[m.val]? = digits[n.val]? → m = n := by decide
      intro m n hm hn he
      have := this ⟨m, hm⟩ ⟨n, hn⟩ he
      injection this
    cases h with
    | cons a1 a2 a3 =>
      cases h' with
      | @cons c' _ _ b' _ b1 b2 b3 =>
        have e1 := inj _ _ (by have := c.isLt; omega) (by have := c'.isLt; omega) (a1.trans b1.symm)
        have e2 := inj _ _ (by omega) (by omega) (a2.trans b2.symm)
        have e3 : c = c' := by
          apply BitVec.eq_of_toNat_eq; omega
        rw [e3, hex_injective b b' _ a3 b3]

/-- **C111, tags and maps.** Associating maps with symbols doesn't change any tag. -/
theorem associate_keeps_tag (sha1 sha256 : Bytes → Bytes) (native : String) (bo : ByteOrder) (sym : String) (m : Int) (p q : List PIns) (e : Option Err)
    (h : associateMap sym m p = (q, e)) (t : Bytes) : hasTag sha1 sha256 native bo q t = hasTag sha1 sha256 native bo p t ∧ tag sha1 native bo q = tag sha1 native bo p := by
  have hu : ∀ i, (upd sym m i).ins = i.ins := by
    intro i; unfold upd; split <;> rfl
  have hmap : ∀ a : List PIns, (a.map (upd sym m)).map (·.ins) = a.map (·.ins) := by
    intro a
    rw [List.map_map]
    apply List.map_congr_left
    intro i _
    exact hu i
  have hi : q.map (·.ins) = p.map (·.ins) := by
    cases e with
    | none =>
      rw [(pointwise_map _ _ (linked_iff sym m) _ _).1 ((associate_exact _ _ _ _).1 h).2.2.2]
      exact hmap p
    | some e =>
      cases e with
      | empty =>
        unfold associateMap at h
        split at h
        · injection h with h _; rw [h]
        · split at h
          · next q' e' hl =>
            rcases first_bad sym p with h0 | ⟨a, b, c, rfl, h1, h2, h3⟩
            · rw [loop_ok sym m p false h0] at hl; cases hl
            · rw [loop_bad sym m b c h2 h3 a false h1] at hl
              injection hl with _ hl; injection hl with hl; subst hl; cases h
          · split at h <;> cases h
      | unreferenced => rw [((associate_unreferenced _ _ _ _).1 h).2.2]
      | notLoad =>
        obtain ⟨_, a, a', b, c, rfl, rfl, _, _, _, hp⟩ := (associate_notLoad _ _ _ _).1 h
        rw [(pointwise_map _ _ (linked_iff sym m) _ _).1 hp, List.map_append, List.map_append, hmap]
  unfold hasTag tag tagWith
  rw [hi]
  exact ⟨rfl, rfl⟩

/-- **C111, tags and descriptors.** Programs that differ only in descriptors and offsets of map loads (and in symbols and references) have the same tags. -/
theorem tag_only_code (sha1 sha256 : Bytes → Bytes) (native : String) (bo : ByteOrder) (p q : List PIns) (h : EqualUpToMaps (p.map (·.ins)) (q.map (·.ins))) (t : Bytes) :
    hasTag sha1 sha256 native bo p t = hasTag sha1 sha256 native bo q t ∧ tag sha1 native bo p = tag sha1 native bo q := by
  unfold hasTag tag tagWith
  rw [tag_ignores_map_fds native bo _ _ h]
  exact ⟨rfl, rfl⟩

/-! ## Non-vacuity -/

section Examples

def ld (s r : String) : PIns := ⟨⟨0x18#32, 1#8, 1#8, 0#16, 0#64⟩, s, r, none⟩
def ex (s r : String) : PIns := ⟨⟨0x95#32, 0#8, 0#8, 0#16, 0#64⟩, s, r, none⟩

example : associateMap "a" 7 [ld "" "a", ex "" "", ld "" "b", ld "x" "a"] =
  ([{ ld "" "" with map := some 7 }, ex "" "", ld "" "b", { ld "x" "" with map := some 7 }], none) := by decide
example : associateMap "a" 7 [ld "" "a", ex "" "a", ld "" "a"] = ([{ ld "" "" with map := some 7 }, ex "" "a", ld "" "a"], some .notLoad) := by decide
example : associateMap "z" 7 [ld "" "a"] = ([ld "" "a"], some .unreferenced) := by decide
example : associateAll [("a", 7), ("b", 8)] [ld "" "a", ex "" "", ld "" "b"] =
  some [{ ld "" "" with map := some 7 }, ex "" "", { ld "" "" with map := some 8 }] := by decide
example : symbolIndices [ex "f" "", ex "" "", ex "g" ""] 0 [] = some [("g", 2), ("f", 0)] := by decide
example : symbolIndices [ex "f" "", ex "f" ""] 0 [] = none := by decide
example : referenceOffsets [ex "" "f", ex "" "", ex "" "g", ex "" "f"] 0 [] = [("f", [0, 3]), ("g", [2])] := by decide
example : name [ex "f" "", ex "g" ""] = "f" := by decide
example : hex [0x0f#8, 0xa9#8] = [0x30, 0x66, 0x61, 0x39] := by decide
example : hasTag (fun b => b) (fun b => b.map (· + 1)) "amd64" .little [ex "f" ""] (hex [0x95#8, 0, 0, 0, 0, 0, 0, 0]) = .ok true := by rfl
example : hasTag (fun b => b) (fun b => b.map (· + 1)) "amd64" .little [ex "f" ""] (hex [0x96#8, 1, 1, 1, 1, 1, 1, 1]) = .ok true := by rfl
example : hasTag (fun b => b) (fun b => b.map (· + 1)) "amd64" .little [ex "f" ""] (hex [0x97#8, 1, 1, 1, 1, 1, 1, 1]) = .ok false := by rfl

end Examples

end Ebpf.Asm.Assoc
