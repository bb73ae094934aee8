import Verif.Model.Metadata
import Verif.Lemmas.Lists
/-!
# C09: instruction metadata is an independent finite map
-/
set_option linter.unusedSimpArgs false
set_option linter.unusedSectionVars false
namespace Ebpf.Metadata
variable {K V : Type} [DecidableEq K] [DecidableEq V]

/-- The nodes reachable from `p` hold the list `l`; all addresses are below `b`. -/
inductive Chain (h : Heap K V) (b : Nat) : Option Nat → List (K × V) → Prop
  | nil : Chain h b none []
  | cons (a n l) : a < b → h[a]? = some n → Chain h b n.next l → Chain h b (some a) ((n.key, n.value) :: l)

omit [DecidableEq K] [DecidableEq V] in
theorem Chain.frame {h h' : Heap K V} {b b' : Nat} (hb : b ≤ b') (hf : ∀ a, a < b → h'[a]? = h[a]?)
    {p l} (hc : Chain h b p l) : Chain h' b' p l := by
  induction hc with
  | nil => exact .nil
  | cons a n l ha hn _ ih => exact .cons a n l (by omega) (by rw [hf a ha]; exact hn) ih

omit [DecidableEq K] [DecidableEq V] in
/-- Duplicate free keys bound the length of a chain by the heap size. -/
theorem Chain.length_le {h : Heap K V} {b p l} (hc : Chain h b p l) (hk : (l.map (·.1)).Nodup) : l.length ≤ b := by
  have key : ∃ as : List Nat, as.length = l.length ∧ (∀ a ∈ as, a < b ∧ ∃ n, h[a]? = some n ∧ n.key ∈ l.map (·.1)) ∧ as.Nodup := by
    induction hc with
    | nil => exact ⟨[], rfl, by simp, by simp⟩
    | cons a n l ha hn _ ih =>
      simp only [List.map_cons, List.nodup_cons] at hk
      obtain ⟨as, h1, h2, h3⟩ := ih hk.2
      refine ⟨a :: as, by simp [h1], ?_, ?_⟩
      · intro x hx
        rcases List.mem_cons.1 hx with rfl | hx
        · exact ⟨ha, n, hn, by simp⟩
        · obtain ⟨g1, m, g2, g3⟩ := h2 x hx
          exact ⟨g1, m, g2, by simp only [List.map_cons]; exact List.mem_cons_of_mem _ g3⟩
      · rw [List.nodup_cons]
        refine ⟨?_, h3⟩
        intro hm
        obtain ⟨_, m, g2, g3⟩ := h2 a hm
        rw [hn] at g2
        simp only [Option.some.injEq] at g2
        subst g2
        exact hk.1 g3
  obtain ⟨as, h1, h2, h3⟩ := key
  rw [← h1]
  exact nodup_length_le b as h3 (fun a ha => (h2 a ha).1)

omit [DecidableEq V] in
/-- `find` on a chain. -/
theorem find_chain {h : Heap K V} {b p l} (hc : Chain h b p l) (k : K) (n : Nat) (hn : l.length < n) :
    (find h n p k = none ∧ k ∉ l.map (·.1)) ∨
    (∃ a e, find h n p k = some a ∧ h[a]? = some e ∧ e.key = k ∧ l.lookup k = some e.value ∧ k ∈ l.map (·.1)) := by
  induction hc generalizing n with
  | nil => left; cases n <;> simp [find]
  | cons a e l ha he _ ih =>
    cases n with
    | zero => simp at hn
    | succ n =>
      unfold find
      rw [he]
      simp only
      by_cases hk : e.key = k
      · rw [if_pos hk]
        right
        refine ⟨a, e, rfl, he, hk, ?_, by simp [hk]⟩
        simp [List.lookup, hk]
      · rw [if_neg hk]
        have hlt : l.length < n := by simp at hn; omega
        have hne : (k == e.key) = false := by
          rw [beq_eq_false_iff_ne]; exact fun h => hk h.symm
        rcases ih n hlt with ⟨h1, h2⟩ | ⟨a', e', h1, h2, h3, h4, h5⟩
        · left
          refine ⟨h1, ?_⟩
          simp only [List.map_cons, List.mem_cons, not_or]
          exact ⟨fun h => hk h.symm, h2⟩
        · right
          refine ⟨a', e', h1, h2, h3, ?_, ?_⟩
          · simp only [List.lookup, hne]; exact h4
          · simp only [List.map_cons]; exact List.mem_cons_of_mem _ h5

/-- The slot `cur` (`none` = the head variable) holds `p` in `w`. -/
def SlotIs (w : Heap K V × Option Nat) (h : Heap K V) (head cur p : Option Nat) : Prop :=
  match cur with
  | none => w.2 = p
  | some c => w.2 = head ∧ ∀ n, h[c]? = some n → w.1[c]? = some { n with next := p }

omit [DecidableEq K] [DecidableEq V] in
/-- What writing a slot does. -/
theorem writeSlot_spec (h : Heap K V) (head cur p : Option Nat) (hcur : ∀ c, cur = some c → c < h.length) :
    let w := writeSlot h head cur p
    w.1.length = h.length ∧
    (∀ a, cur ≠ some a → w.1[a]? = h[a]?) ∧
    SlotIs w h head cur p := by
  cases cur with
  | none => simp [writeSlot, SlotIs]
  | some c =>
    have hc := hcur c rfl
    simp only [writeSlot]
    have : h[c]? = some h[c] := by simp [hc]
    rw [this]
    simp only
    refine ⟨by simp, ?_, by simp [hc, SlotIs]⟩
    intro a ha
    have : c ≠ a := fun h => ha (by rw [h])
    rw [List.getElem?_set_ne this]

omit [DecidableEq V] in
/-- The copying removal loop: the slot receives a chain without the first element with key `k`; no
node outside the slot is modified. -/
theorem removeLoop_spec (r : Nat) (k : K) (b : Nat) : ∀ (n : Nat) (h : Heap K V) (head cur e : Option Nat) (l : List (K × V)),
    b ≤ h.length → Chain h b e l → (∀ c, cur = some c → b ≤ c ∧ c < h.length) →
    (∀ m, l.length < m → find h m e k = some r) → l.length < n →
    let w := removeLoop r n h head cur e
    h.length ≤ w.1.length ∧
    (∀ a, a < h.length → cur ≠ some a → w.1[a]? = h[a]?) ∧
    ∃ p, Chain w.1 w.1.length p (l.eraseP (fun x => decide (x.1 = k))) ∧
      SlotIs w h head cur p := by
  intro n
  induction n with
  | zero => intro h head cur e l _ _ _ _ hn; omega
  | succ n ih =>
    intro h head cur e l hb hc hcur hf hn
    cases hc with
    | nil =>
      have := hf 1 (by simp)
      simp [find] at this
    | cons a nd l' ha hnd hc' =>
      simp only [removeLoop, hnd]
      have hfa := hf (l'.length + 2) (by simp)
      by_cases hk : nd.key = k
      · -- found
        have har : a = r := by
          rw [find] at hfa; simp only [hnd, hk, if_true] at hfa; simpa using hfa
        rw [if_pos har]
        have ws := writeSlot_spec h head cur nd.next (fun c hc => (hcur c hc).2)
        simp only at ws
        obtain ⟨w1, w2, w3⟩ := ws
        refine ⟨by rw [w1]; omega, fun a _ hne => w2 a hne, nd.next, ?_, w3⟩
        have : (List.eraseP (fun x : K × V => decide (x.1 = k)) ((nd.key, nd.value) :: l')) = l' := by
          simp [List.eraseP_cons, hk]
        rw [this]
        refine Chain.frame (h := h) (b := b) (by rw [w1]; omega) ?_ hc'
        intro x hx
        apply w2
        intro hcx
        have := (hcur x hcx).1
        omega
      · have har : a ≠ r := by
          intro har
          have hrk : find h (l'.length + 1) nd.next k = some r := by
            rw [find] at hfa; simpa [hnd, hk] using hfa
          have := find_chain hc' k (l'.length + 1) (by omega)
          rcases this with ⟨h1, _⟩ | ⟨a', e', h1, h2, h3, _, _⟩
          · rw [h1] at hrk; cases hrk
          · rw [h1] at hrk
            simp only [Option.some.injEq] at hrk
            rw [hrk, ← har, hnd] at h2
            simp only [Option.some.injEq] at h2
            rw [← h2] at h3; exact hk h3
        rw [if_neg har]
        -- the copy
        generalize hcp : ({ key := nd.key, value := nd.value, next := none } : Node K V) = cp
        have ws := writeSlot_spec (h ++ [cp]) head cur (some h.length)
          (fun c hc => by have := (hcur c hc).2; simp; omega)
        simp only at ws
        obtain ⟨w1, w2, w3⟩ := ws
        have hold : ∀ x, x < h.length → cur ≠ some x → (writeSlot (h ++ [cp]) head cur (some h.length)).1[x]? = h[x]? := by
          intro x hx hne
          rw [w2 x hne, List.getElem?_append_left hx]
        have hnew : (writeSlot (h ++ [cp]) head cur (some h.length)).1[h.length]? = some cp := by
          rw [w2 h.length (fun hh => by have := (hcur _ hh).2; omega)]
          simp
        have hlen : (writeSlot (h ++ [cp]) head cur (some h.length)).1.length = h.length + 1 := by
          rw [w1]; simp
        have hfr : ∀ x, x < b → (writeSlot (h ++ [cp]) head cur (some h.length)).1[x]? = h[x]? := by
          intro x hx
          apply hold x (by omega)
          intro hh; have := (hcur x hh).1; omega
        have hc'' : Chain (writeSlot (h ++ [cp]) head cur (some h.length)).1 b nd.next l' :=
          Chain.frame (Nat.le_refl b) hfr hc'
        have hfind : ∀ m, l'.length < m →
            find (writeSlot (h ++ [cp]) head cur (some h.length)).1 m nd.next k = some r := by
          intro m hm
          have g1 : find h m nd.next k = some r := by
            have := hf (m + 1) (by simp; omega)
            rw [find] at this; simpa [hnd, hk] using this
          -- find only reads old nodes
          have aux : ∀ (l'' : List (K × V)) (q : Option Nat), Chain h b q l'' → ∀ m,
              find (writeSlot (h ++ [cp]) head cur (some h.length)).1 m q k = find h m q k := by
            intro l'' q hq
            induction hq with
            | nil => intro m; cases m <;> rfl
            | cons x y z hx hy _ ih2 =>
              intro m
              cases m with
              | zero => rfl
              | succ m =>
                unfold find
                rw [hfr x hx, hy]
                simp only
                rw [ih2]
          rw [aux l' nd.next hc']; exact g1
        have IH := ih (writeSlot (h ++ [cp]) head cur (some h.length)).1
          (writeSlot (h ++ [cp]) head cur (some h.length)).2 (some h.length) nd.next l'
          (by rw [hlen]; omega) hc'' (by intro c hc; cases hc; rw [hlen]; omega) hfind (by simp at hn; omega)
        simp only at IH
        obtain ⟨i1, i2, p, i3, i45⟩ := IH
        obtain ⟨i4, i5⟩ := i45
        rw [hlen] at i1 i2
        refine ⟨by omega, ?_, some h.length, ?_, ?_⟩
        · intro x hx hne
          rw [i2 x (by omega) (by intro hh; simp only [Option.some.injEq] at hh; omega), hold x hx hne]
        · have e1 : (List.eraseP (fun x : K × V => decide (x.1 = k)) ((nd.key, nd.value) :: l'))
              = (nd.key, nd.value) :: l'.eraseP (fun x => decide (x.1 = k)) := by
            simp [List.eraseP_cons, hk]
          rw [e1]
          have hh := i5 cp hnew
          subst hcp
          exact .cons h.length { key := nd.key, value := nd.value, next := p } _ (by omega) hh i3
        · cases cur with
          | none => simp only [SlotIs] at w3 i4 ⊢; rw [i4, w3]
          | some c =>
            simp only [SlotIs] at w3 i4 ⊢
            refine ⟨by rw [i4, w3.1], ?_⟩
            intro m hm
            have hcl := (hcur c rfl).2
            rw [i2 c (by omega) (by intro hh; simp only [Option.some.injEq] at hh; omega)]
            apply w3.2
            rw [List.getElem?_append_left hcl]; exact hm

/-- The invariant: every variable's list is a chain with distinct keys. -/
def Inv (w : World K V) : Prop :=
  ∀ x, ∃ l, Chain w.heap w.heap.length (w.head x) l ∧ (l.map (·.1)).Nodup

/-- Specification: one finite map per variable. -/
abbrev SpecState (K V : Type) := Nat → K → Option V

/-- Specification of a step: `Set` updates one key of one variable (nil removes it), a copy starts
out equal and independent. -/
def specStep (s : SpecState K V) : Op K V → SpecState K V
  | .set x k v => fun y j => if y = x ∧ j = k then v else s y j
  | .copy d src => fun y j => if y = d then s src j else s y j

theorem get_chain {h : Heap K V} {p l} (hc : Chain h h.length p l) (hk : (l.map (·.1)).Nodup) (k : K) :
    get h p k = l.lookup k := by
  unfold get
  have hl := hc.length_le hk
  rcases find_chain hc k (h.length + 1) (by omega) with ⟨h1, h2⟩ | ⟨a, e, h1, h2, h3, h4, _⟩
  · rw [h1]
    symm
    rw [List.lookup_eq_none_iff]
    intro x hx
    simp only [bne_iff_ne, ne_eq, beq_eq_false_iff_ne]
    intro hh; exact h2 (List.mem_map.2 ⟨x, hx, hh.symm⟩)
  · rw [h1]; simp [h2, h4]

omit [DecidableEq V] in
theorem lookup_eraseP_self (l : List (K × V)) (k : K) (hk : (l.map (·.1)).Nodup) :
    (l.eraseP (fun x => decide (x.1 = k))).lookup k = none ∧
    ∀ j, j ≠ k → (l.eraseP (fun x => decide (x.1 = k))).lookup j = l.lookup j := by
  induction l with
  | nil => simp
  | cons x l ih =>
    simp only [List.map_cons, List.nodup_cons] at hk
    obtain ⟨i1, i2⟩ := ih hk.2
    by_cases hx : x.1 = k
    · have : List.eraseP (fun x : K × V => decide (x.1 = k)) (x :: l) = l := by simp [List.eraseP_cons, hx]
      rw [this]
      constructor
      · rw [List.lookup_eq_none_iff]
        intro y hy
        rw [bne_iff_ne]
        intro hh; apply hk.1; rw [hx, hh]; exact List.mem_map.2 ⟨y, hy, rfl⟩
      · intro j hj
        obtain ⟨a, b⟩ := x
        have : (j == a) = false := by rw [beq_eq_false_iff_ne]; intro hh; exact hj (hh.trans hx)
        simp [List.lookup, this]
    · have : List.eraseP (fun x : K × V => decide (x.1 = k)) (x :: l) = x :: l.eraseP (fun x => decide (x.1 = k)) := by
        simp [List.eraseP_cons, hx]
      rw [this]
      obtain ⟨a, b⟩ := x
      have hne : (k == a) = false := by rw [beq_eq_false_iff_ne]; exact fun h => hx h.symm
      constructor
      · simp [List.lookup, hne, i1]
      · intro j hj
        simp only [List.lookup]
        rw [i2 j hj]

/-- What `Set` does: old lists are untouched, the result is a list with the key updated. -/
theorem set_spec (h : Heap K V) (head : Option Nat) (l : List (K × V)) (hc : Chain h h.length head l)
    (hk : (l.map (·.1)).Nodup) (k : K) (v : Option V) :
    let w := set h head k v
    h.length ≤ w.1.length ∧ (∀ a, a < h.length → w.1[a]? = h[a]?) ∧
    ∃ l', Chain w.1 w.1.length w.2 l' ∧ (l'.map (·.1)).Nodup ∧ ∀ j, l'.lookup j = if j = k then v else l.lookup j := by
  have hl := hc.length_le hk
  have push : ∀ (w : Heap K V × Option Nat) (l1 : List (K × V)), h.length ≤ w.1.length →
      (∀ a, a < h.length → w.1[a]? = h[a]?) → Chain w.1 w.1.length w.2 l1 → (l1.map (·.1)).Nodup →
      (l1.lookup k = none) → (∀ j, j ≠ k → l1.lookup j = l.lookup j) →
      let w' : Heap K V × Option Nat := match v with
        | none => w
        | some v => (w.1 ++ [{ key := k, value := v, next := w.2 }], some w.1.length)
      h.length ≤ w'.1.length ∧ (∀ a, a < h.length → w'.1[a]? = h[a]?) ∧
      ∃ l', Chain w'.1 w'.1.length w'.2 l' ∧ (l'.map (·.1)).Nodup ∧ ∀ j, l'.lookup j = if j = k then v else l.lookup j := by
    intro w l1 h1 h2 h3 h4 h5 h6
    cases v with
    | none =>
      refine ⟨h1, h2, l1, h3, h4, ?_⟩
      intro j
      by_cases hj : j = k
      · rw [if_pos hj, hj]; exact h5
      · rw [if_neg hj]; exact h6 j hj
    | some v =>
      simp only
      refine ⟨by simp; omega, ?_, (k, v) :: l1, ?_, ?_, ?_⟩
      · intro a ha
        rw [List.getElem?_append_left (by omega)]; exact h2 a ha
      · refine .cons w.1.length { key := k, value := v, next := w.2 } l1 (by simp) (by simp) ?_
        exact Chain.frame (by simp) (fun a ha => List.getElem?_append_left ha) h3
      · simp only [List.map_cons, List.nodup_cons]
        refine ⟨?_, h4⟩
        intro hm
        obtain ⟨x, hx, hxk⟩ := List.mem_map.1 hm
        rw [List.lookup_eq_none_iff] at h5
        have := h5 x hx
        rw [bne_iff_ne] at this
        exact this hxk.symm
      · intro j
        by_cases hj : j = k
        · rw [if_pos hj, hj]; simp [List.lookup]
        · rw [if_neg hj]
          have : (j == k) = false := by rw [beq_eq_false_iff_ne]; exact hj
          simp only [List.lookup, this]; exact h6 j hj
  unfold set
  rcases find_chain hc k (h.length + 1) (by omega) with ⟨h1, h2⟩ | ⟨a, e, h1, h2, h3, h4, h5⟩
  · rw [h1]
    refine push (h, head) l (Nat.le_refl _) (fun _ _ => rfl) hc hk ?_ (fun _ _ => rfl)
    rw [List.lookup_eq_none_iff]
    intro x hx
    rw [bne_iff_ne]
    intro hh; exact h2 (List.mem_map.2 ⟨x, hx, hh.symm⟩)
  · rw [h1]
    simp only [h2]
    by_cases hv : v = some e.value
    · rw [if_pos hv]
      refine ⟨Nat.le_refl _, fun _ _ => rfl, l, hc, hk, ?_⟩
      intro j
      by_cases hj : j = k
      · rw [if_pos hj, hj, h4, hv]
      · rw [if_neg hj]
    · rw [if_neg hv]
      have hfind : ∀ m, l.length < m → find h m head k = some a := by
        intro m hm
        -- find is independent of surplus fuel
        have aux : ∀ (q : Option Nat) (l'' : List (K × V)), Chain h h.length q l'' → ∀ m m', l''.length < m → l''.length < m' →
            find h m q k = find h m' q k := by
          intro q l'' hq
          induction hq with
          | nil => intro m m' _ _; cases m <;> cases m' <;> rfl
          | cons x y z _ hy _ ih =>
            intro m m' g1 g2
            simp only [List.length_cons] at g1 g2
            obtain ⟨m, rfl⟩ : ∃ q, m = q + 1 := ⟨m - 1, by omega⟩
            obtain ⟨m', rfl⟩ : ∃ q, m' = q + 1 := ⟨m' - 1, by omega⟩
            unfold find
            rw [hy]
            simp only
            rw [ih m m' (by omega) (by omega)]
        rw [aux head l hc m (h.length + 1) hm (by omega)]; exact h1
      have RL := removeLoop_spec a k h.length (h.length + 1) h head none head l (Nat.le_refl _) hc
        (by intro c hc; cases hc) hfind (by omega)
      simp only at RL
      obtain ⟨r1, r2, p, r3, r4⟩ := RL
      have le := lookup_eraseP_self l k hk
      simp only [SlotIs] at r4
      rw [← r4] at r3
      refine push _ _ r1 (fun a ha => r2 a ha (by simp)) r3 ?_ le.1 le.2
      exact hk.sublist ((List.eraseP_sublist).map _)

/-- C09: for every history of `Set` and copy operations on any number of instructions, every `Get`
returns what independent finite maps would return. -/
theorem metadata_refines_maps (ops : List (Op K V)) (x : Nat) (k : K) :
    (ops.foldl World.step World.init).get x k = ops.foldl specStep (fun _ _ => none) x k := by
  have key : ∀ (ops : List (Op K V)) (w : World K V) (s : SpecState K V), Inv w → (∀ x k, w.get x k = s x k) →
      ∀ x k, (ops.foldl World.step w).get x k = ops.foldl specStep s x k := by
    intro ops
    induction ops with
    | nil => intro w s _ hs x k; exact hs x k
    | cons op ops ih =>
      intro w s hw hs x k
      simp only [List.foldl_cons]
      apply ih
      · -- invariant
        cases op with
        | copy d src =>
          intro y
          simp only [World.step]
          by_cases hy : y = d
          · simp only [hy, if_true]; exact hw src
          · simp only [hy, if_false]; exact hw y
        | set v j val =>
          obtain ⟨l, hl, hn⟩ := hw v
          have S := set_spec w.heap (w.head v) l hl hn j val
          simp only at S
          obtain ⟨s1, s2, l', s3, s4, _⟩ := S
          intro y
          simp only [World.step]
          by_cases hy : y = v
          · simp only [hy, if_true]; exact ⟨l', s3, s4⟩
          · simp only [hy, if_false]
            obtain ⟨ly, hly, hny⟩ := hw y
            exact ⟨ly, Chain.frame s1 s2 hly, hny⟩
      · -- refinement
        intro y i
        cases op with
        | copy d src =>
          simp only [World.step, specStep, World.get]
          by_cases hy : y = d
          · simp only [hy, if_true]; exact hs src i
          · simp only [hy, if_false]; exact hs y i
        | set v j val =>
          obtain ⟨l, hl, hn⟩ := hw v
          have S := set_spec w.heap (w.head v) l hl hn j val
          simp only at S
          obtain ⟨s1, s2, l', s3, s4, s5⟩ := S
          simp only [World.step, specStep, World.get]
          by_cases hy : y = v
          · simp only [hy, if_true, true_and]
            rw [get_chain s3 s4, s5]
            by_cases hi : i = j
            · simp [hi]
            · simp only [hi, if_false]
              rw [← get_chain hl hn]; exact hs v i
          · simp only [hy, if_false, false_and]
            obtain ⟨ly, hly, hny⟩ := hw y
            rw [get_chain (Chain.frame s1 s2 hly) hny, ← get_chain hly hny]; exact hs y i
  apply key
  · intro x; exact ⟨[], .nil, by simp⟩
  · intro x k; rfl

/-- A history: copy, then overwrite and delete in the original. -/
def demoWorld : World String Nat :=
  List.foldl World.step World.init
    [Op.set 0 "a" (some 1), .set 0 "b" (some 2), .copy 1 0, .set 0 "a" (some 3), .set 0 "b" none]

/-- Non-vacuity: the copy keeps the old values. -/
example : demoWorld.get 0 "a" = some 3 ∧ demoWorld.get 0 "b" = none ∧ demoWorld.get 1 "a" = some 1
    ∧ demoWorld.get 1 "b" = some 2 := by
  decide

end Ebpf.Metadata
