import Verif.Model.BtfStrings
import Verif.Spec.BtfStrings
import Verif.Props.Memory
/-! # C24: BTF string tables -/
namespace Ebpf.Btf
open Ebpf.Memory (copyAt copyAt_length copyAt_get)

theorem untilNul_some (b s : Bytes) : untilNul b = some s ↔ 0#8 ∉ s ∧ ∃ post, b = s ++ 0 :: post := by
  induction b generalizing s with
  | nil => simp [untilNul]
  | cons x r ih =>
    unfold untilNul
    by_cases hx : x = 0
    · subst hx
      simp only [if_true, Option.some.injEq]
      constructor
      · rintro rfl; exact ⟨by simp, r, rfl⟩
      · rintro ⟨h0, post, h⟩
        cases s with
        | nil => rfl
        | cons y t => injection h with h1 h2; exact absurd (h1 ▸ List.mem_cons_self) h0
    · simp only [if_neg hx, Option.map_eq_some_iff]
      constructor
      · rintro ⟨t, ht, rfl⟩
        obtain ⟨h0, post, h⟩ := (ih t).1 ht
        exact ⟨by simp only [List.mem_cons, not_or]; exact ⟨fun h => hx h.symm, h0⟩, post, by rw [h]; rfl⟩
      · rintro ⟨h0, post, h⟩
        cases s with
        | nil => injection h with h1 h2; exact absurd h1 hx
        | cons y t =>
          injection h with h1 h2
          subst h1
          exact ⟨t, (ih t).2 ⟨fun h => h0 (List.mem_cons_of_mem _ h), post, h2⟩, rfl⟩

theorem lookupIn_exact (b s : Bytes) (off : BitVec 32) (hb : b.length < 2 ^ 32) :
    lookupIn b off = some s ↔ StringAt b off.toNat s := by
  unfold lookupIn
  have hgt : off > BitVec.ofNat 32 b.length ↔ b.length < off.toNat := by
    rw [gt_iff_lt, BitVec.lt_def, BitVec.toNat_ofNat, Nat.mod_eq_of_lt hb]
  have hpos : off > 0 ↔ 0 < off.toNat := by
    rw [gt_iff_lt, BitVec.lt_def]; exact Iff.rfl
  by_cases h1 : b.length < off.toNat
  · rw [if_pos (hgt.2 h1)]
    constructor
    · intro h; cases h
    · rintro ⟨pre, post, rfl, hl, _⟩
      simp at h1; omega
  · rw [if_neg (fun h => h1 (hgt.1 h))]
    by_cases h2 : off > 0 ∧ b[off.toNat - 1]? ≠ some 0
    · rw [if_pos h2]
      constructor
      · intro h; cases h
      · rintro ⟨pre, post, rfl, hl, _, hp⟩
        have hp0 := hpos.1 h2.1
        rcases hp with rfl | hp
        · simp at hl; omega
        · exfalso
          apply h2.2
          rw [List.getElem?_append_left (by omega), ← hl, ← List.getLast?_eq_getElem?]
          exact hp
    · rw [if_neg h2, untilNul_some]
      constructor
      · rintro ⟨h0, post, h⟩
        refine ⟨b.take off.toNat, post, ?_, by rw [List.length_take]; omega, h0, ?_⟩
        · rw [← h, List.take_append_drop]
        · by_cases hz : off.toNat = 0
          · left; rw [hz]; rfl
          · right
            have : b[off.toNat - 1]? = some 0 := by
              apply Classical.byContradiction
              intro hc
              exact h2 ⟨hpos.2 (by omega), hc⟩
            rw [List.getLast?_eq_getElem?, List.length_take, List.getElem?_take, if_pos (by omega)]
            rw [show min off.toNat b.length - 1 = off.toNat - 1 from by omega]
            exact this
      · rintro ⟨pre, post, rfl, hl, h0, _⟩
        exact ⟨h0, post, by rw [← hl, List.drop_left]⟩

/-- A table accepted by `newStringTable` is empty or ends in NUL. -/
theorem newStringTable_wf (bytes : Bytes) (base : Option Bytes) (st : StrTab) (h : newStringTable bytes base = some st) :
    st = ⟨base, bytes⟩ ∧ (bytes = [] ∨ bytes.getLast? = some 0) := by
  unfold newStringTable at h
  dsimp only at h
  generalize BitVec.ofNat 32 (base.getD []).length = first at h
  cases hl' : bytes.getLast? <;> rw [hl'] at h <;> dsimp only at h
  · injection h with h; exact ⟨h.symm, .inl (List.getLast?_eq_none_iff.1 hl')⟩
  · rename_i l
    by_cases h0 : l ≠ 0
    · rw [if_pos h0] at h; cases h
    · rw [if_neg h0] at h
      by_cases h1 : first = 0 ∧ bytes.head? ≠ some 0
      · rw [if_pos h1] at h; cases h
      · rw [if_neg h1] at h
        injection h with h
        exact ⟨h.symm, .inr (by rw [Classical.not_not.1 h0])⟩

/-- Putting a NUL terminated table in front shifts the strings. -/
theorem stringAt_shift (a b s : Bytes) (n : Nat) (ha : a = [] ∨ a.getLast? = some 0) :
    StringAt (a ++ b) (a.length + n) s ↔ StringAt b n s := by
  constructor
  · rintro ⟨pre, post, h, hl, h0, hp⟩
    have hpre : pre = a ++ pre.drop a.length := by
      have := congrArg (List.take a.length) h
      rw [List.take_append_of_le_length (by omega), List.take_append_of_le_length (by omega)] at this
      simp only [List.take_length] at this
      conv => lhs; rw [← List.take_append_drop a.length pre]
      rw [← this]
    refine ⟨pre.drop a.length, post, ?_, by rw [List.length_drop]; omega, h0, ?_⟩
    · rw [hpre, List.append_assoc] at h
      exact List.append_cancel_left h
    · by_cases hn : n = 0
      · left; apply List.drop_eq_nil_of_le; omega
      · right
        rcases hp with rfl | hp
        · simp at hl; omega
        · rw [hpre] at hp
          rw [List.getLast?_append] at hp
          have hne : pre.drop a.length ≠ [] := by
            intro hc; have := congrArg List.length hc; simp at this; omega
          obtain ⟨x, hx⟩ : ∃ x, (pre.drop a.length).getLast? = some x := by
            cases hx : (pre.drop a.length).getLast? with
            | none => exact absurd (List.getLast?_eq_none_iff.1 hx) hne
            | some x => exact ⟨x, rfl⟩
          rw [hx] at hp ⊢
          exact hp
  · rintro ⟨pre, post, rfl, hl, h0, hp⟩
    refine ⟨a ++ pre, post, by rw [List.append_assoc], by rw [List.length_append]; omega, h0, ?_⟩
    rcases hp with rfl | hp
    · rcases ha with rfl | ha
      · left; rfl
      · right; rw [List.append_nil]; exact ha
    · right; rw [List.getLast?_append, hp]; rfl

theorem stringAt_prefix (a b s : Bytes) (n : Nat) (ha : a = [] ∨ a.getLast? = some 0) (hn : n < a.length) :
    StringAt (a ++ b) n s ↔ StringAt a n s := by
  constructor
  · rintro ⟨pre, post, h, hl, h0, hp⟩
    -- the string ends within `a`, because `a` ends in NUL
    have ha : a.getLast? = some 0 := by
      rcases ha with rfl | ha
      · simp at hn
      · exact ha
    have hlen : pre.length + s.length + 1 ≤ a.length := by
      apply Classical.byContradiction
      intro hc
      -- position a.length - 1 holds NUL and lies inside s
      have e1 : (a ++ b)[a.length - 1]? = some 0 := by
        rw [List.getElem?_append_left (by omega), ← List.getLast?_eq_getElem?]; exact ha
      rw [h, List.getElem?_append_right (by omega), List.getElem?_append_left (by omega)] at e1
      exact h0 (List.mem_of_getElem? e1)
    have hs : pre ++ (s ++ [0]) = a.take (pre.length + s.length + 1) := by
      have := congrArg (List.take (pre.length + s.length + 1)) h
      rw [List.take_append_of_le_length hlen] at this
      rw [this]
      rw [show pre ++ (s ++ 0 :: post) = (pre ++ (s ++ [0])) ++ post from by simp]
      rw [List.take_append_of_le_length (by simp; omega), List.take_of_length_le (by simp; omega)]
    refine ⟨pre, a.drop (pre.length + s.length + 1), ?_, hl, h0, hp⟩
    calc a = a.take (pre.length + s.length + 1) ++ a.drop (pre.length + s.length + 1) := (List.take_append_drop _ _).symm
      _ = _ := by rw [← hs]; simp
  · rintro ⟨pre, post, rfl, hl, h0, hp⟩
    exact ⟨pre, post ++ b, by simp, hl, h0, hp⟩

/-- **C24, lookup**: looking up an offset gives the string at that offset of the base table followed by the split
table, if one starts there, and fails otherwise; offset 0 is the empty string. -/
theorem lookup_exact (bytes : Bytes) (base : Option Bytes) (st : StrTab) (off : BitVec 32) (s : Bytes)
    (hst : newStringTable bytes base = some st) (hbase : ∀ b, base = some b → newStringTable b none = some ⟨none, b⟩)
    (hlen : ((base.getD []) ++ bytes).length < 2 ^ 32) :
    st.lookup off = some s ↔ (off = 0 ∧ s = []) ∨ (off ≠ 0 ∧ StringAt (base.getD [] ++ bytes) off.toNat s) := by
  obtain ⟨rfl, _⟩ := newStringTable_wf _ _ _ hst
  unfold StrTab.lookup
  by_cases h0 : off = 0
  · rw [if_pos h0]
    simp only [h0, Option.some.injEq, true_and, ne_eq, not_true_eq_false, false_and, or_false]
    exact eq_comm
  · rw [if_neg h0]
    simp only [h0, false_and, false_or, ne_eq, not_false_eq_true, true_and]
    unfold StrTab.lookupSlow
    cases base with
    | none => exact lookupIn_exact bytes s off (by simpa using hlen)
    | some b =>
      have hb := (newStringTable_wf _ _ _ (hbase b rfl)).2
      simp only [Option.getD_some, List.length_append] at hlen ⊢
      have hn : (BitVec.ofNat 32 b.length).toNat = b.length := by
        rw [BitVec.toNat_ofNat]; exact Nat.mod_eq_of_lt (by omega)
      by_cases hlt : off < BitVec.ofNat 32 b.length
      · rw [if_pos hlt]
        rw [BitVec.lt_def, hn] at hlt
        rw [lookupIn_exact b s off (by omega), stringAt_prefix b bytes s _ hb hlt]
      · rw [if_neg hlt]
        rw [BitVec.lt_def, hn] at hlt
        rw [lookupIn_exact bytes s _ (by omega)]
        rw [BitVec.toNat_sub_of_le (by rw [BitVec.le_def, hn]; omega), hn]
        conv => rhs; rw [show off.toNat = b.length + (off.toNat - b.length) from by omega]
        exact (stringAt_shift b bytes s _ hb).symm

/-- **C24, cache**: whatever was looked up before, `LookupCached` returns what `Lookup` returns. -/
theorem lookupCached_exact (st : StrTab) (cache : List (BitVec 32 × Bytes)) (off : BitVec 32)
    (hc : ∀ o s, cache.lookup o = some s → st.lookup o = some s) :
    (st.lookupCached cache off).1 = st.lookup off ∧
    ∀ o s, (st.lookupCached cache off).2.lookup o = some s → st.lookup o = some s := by
  unfold StrTab.lookupCached
  by_cases h0 : off = 0
  · rw [if_pos h0]; exact ⟨by simp [StrTab.lookup, h0], hc⟩
  · rw [if_neg h0]
    split
    next s hs => exact ⟨(hc _ _ hs).symm, hc⟩
    next hs =>
    split
    next hn => exact ⟨hn.symm, hc⟩
    next s hn =>
      refine ⟨hn.symm, fun o t ho => ?_⟩
      simp only [List.lookup_cons] at ho
      split at ho
      next he => rw [beq_iff_eq] at he; injection ho with ho; rw [he, ← ho]; exact hn
      · exact hc _ _ ho

/-! ## Builder -/

theorem table_append (a b : List Bytes) : table (a ++ b) = table a ++ table b := by simp [table]
theorem table_cons (s : Bytes) (l : List Bytes) : table (s :: l) = s ++ 0 :: table l := by simp [table]
theorem table_last (l : List Bytes) : table l = [] ∨ (table l).getLast? = some 0 := by
  rcases List.eq_nil_or_concat l with rfl | ⟨r, x, rfl⟩
  · left; rfl
  · right; rw [List.concat_eq_append, table_append, table_cons]; simp [table]

/-- The builder holds exactly the strings `order`, in the order of their first addition. -/
structure Holds (b : Builder) (order : List Bytes) : Prop where
  head : order.head? = some []
  nodup : order.Nodup
  nonul : ∀ s ∈ order, 0#8 ∉ s
  len : b.length = BitVec.ofNat 32 (table order).length
  entries : ∀ s off, (s, off) ∈ b.strings ↔ ∃ pre post, order = pre ++ s :: post ∧ off = BitVec.ofNat 32 (table pre).length
  keys : (b.strings.map (·.1)).Nodup

theorem holds_new : Holds Builder.new [[]] where
  head := rfl
  nodup := by simp
  nonul := by simp
  len := by decide
  entries := by
    intro s off
    simp only [Builder.new, Builder.append, List.mem_singleton, Prod.mk.injEq]
    constructor
    · rintro ⟨rfl, rfl⟩; exact ⟨[], [], rfl, by decide⟩
    · rintro ⟨pre, post, h, ho⟩
      cases pre with
      | nil => injection h with h1 h2; exact ⟨h1.symm, ho⟩
      | cons x p => injection h with h1 h2; cases p <;> simp at h2
  keys := by simp [Builder.new, Builder.append]

theorem mem_of_lookup {α β} [BEq α] [LawfulBEq α] (l : List (α × β)) (k : α) (v : β) (h : l.lookup k = some v) : (k, v) ∈ l := by
  induction l with
  | nil => simp at h
  | cons x r ih =>
    obtain ⟨a, c⟩ := x
    simp only [List.lookup_cons] at h
    split at h
    next he => rw [beq_iff_eq] at he; injection h with h; rw [he, h]; exact List.mem_cons_self
    · exact List.mem_cons_of_mem _ (ih h)

theorem lookup_none {α β} [BEq α] [LawfulBEq α] (l : List (α × β)) (k : α) (h : l.lookup k = none) (v : β) : (k, v) ∉ l := by
  intro hm
  induction l with
  | nil => simp at hm
  | cons x r ih =>
    obtain ⟨a, c⟩ := x
    simp only [List.lookup_cons] at h
    split at h
    · cases h
    next he =>
      rcases List.mem_cons.1 hm with hm | hm
      · injection hm with h1 h2; subst h1; simp at he
      · exact ih h hm

/-- Splitting a duplicate free list at an element is unique. -/
theorem split_unique {α} (l p q p' q' : List α) (x : α) (hn : l.Nodup) (h : l = p ++ x :: q) (h' : l = p' ++ x :: q') : p = p' := by
  subst h
  induction p generalizing p' with
  | nil =>
    cases p' with
    | nil => rfl
    | cons y t =>
      simp only [List.nil_append, List.cons_append] at h' hn
      injection h' with h1 h2
      exfalso
      rw [List.nodup_cons] at hn
      exact hn.1 (by rw [h2]; simp)
  | cons y t ih =>
    cases p' with
    | nil =>
      simp only [List.nil_append, List.cons_append] at h' hn
      injection h' with h1 h2
      exfalso
      rw [List.nodup_cons] at hn
      exact hn.1 (by rw [h1]; simp)
    | cons z t' =>
      simp only [List.cons_append] at h' hn
      injection h' with h1 h2
      rw [h1, ih t' (List.nodup_cons.1 hn).2 h2]

/-- What `Add` does to the strings held. -/
theorem holds_add (b b' : Builder) (order : List Bytes) (s : Bytes) (o : BitVec 32) (hb : Holds b order)
    (h : b.add s = some (o, b')) :
    0#8 ∉ s ∧ ∃ order', Holds b' order' ∧ (order' = order ∨ order' = order ++ [s]) ∧
      ∃ pre post, order' = pre ++ s :: post ∧ o = BitVec.ofNat 32 (table pre).length := by
  unfold Builder.add at h
  split at h
  · cases h
  next h0 =>
  refine ⟨h0, ?_⟩
  split at h
  next off hl =>
    injection h with h; injection h with h1 h2; subst h1 h2
    exact ⟨order, hb, .inl rfl, (hb.entries _ _).1 (mem_of_lookup _ _ _ hl)⟩
  next hl =>
    injection h with h
    simp only [Builder.append] at h
    injection h with h1 h2
    subst h1 h2
    have hnew : s ∉ order := by
      intro hm
      obtain ⟨pre, post, hp⟩ := List.append_of_mem hm
      exact lookup_none _ _ hl _ ((hb.entries s _).2 ⟨pre, post, hp, rfl⟩)
    refine ⟨order ++ [s], ?_, .inr rfl, order, [], rfl, hb.len⟩
    constructor
    · have := hb.head
      cases order with
      | nil => simp at this
      | cons x r => simpa using this
    · rw [List.nodup_append]
      refine ⟨hb.nodup, by simp, ?_⟩
      intro a ha c hc hac
      simp at hc
      subst hac hc
      exact hnew ha
    · intro t ht
      rcases List.mem_append.1 ht with ht | ht
      · exact hb.nonul t ht
      · simp at ht; rw [ht]; exact h0
    · simp only
      rw [hb.len, table_append, table_cons]
      simp only [table, List.map_nil, List.flatten_nil, List.length_append, List.length_cons, List.length_nil]
      rw [BitVec.ofNat_add, BitVec.ofNat_add]
      rfl
    · intro t off
      simp only [List.mem_cons, Prod.mk.injEq]
      constructor
      · rintro (⟨rfl, rfl⟩ | hm)
        · exact ⟨order, [], rfl, hb.len⟩
        · obtain ⟨pre, post, hp, ho⟩ := (hb.entries t off).1 hm
          exact ⟨pre, post ++ [s], by rw [hp]; simp, ho⟩
      · rintro ⟨pre, post, hp, ho⟩
        rcases List.eq_nil_or_concat post with rfl | ⟨q, x, rfl⟩
        · obtain ⟨h1, h2⟩ := List.append_inj' hp rfl
          injection h2 with h2
          subst h1
          left
          exact ⟨h2.symm, by rw [ho, hb.len]⟩
        · rw [List.concat_eq_append] at hp
          right
          rw [show pre ++ t :: (q ++ [x]) = (pre ++ t :: q) ++ [x] from by simp] at hp
          obtain ⟨h1, _⟩ := List.append_inj' hp rfl
          exact (hb.entries t off).2 ⟨pre, q, h1, ho⟩
    · simp only [List.map_cons, List.nodup_cons]
      refine ⟨?_, hb.keys⟩
      intro hm
      obtain ⟨⟨t, off⟩, hm', ht⟩ := List.mem_map.1 hm
      simp only at ht
      subst ht
      exact lookup_none _ _ hl _ hm'

/-- All offsets handed out so far stay valid. -/
theorem holds_addAll : ∀ (ss : List Bytes) (b b' : Builder) (order : List Bytes) (os : List (BitVec 32)), Holds b order →
    Builder.addAll b ss = some (os, b') →
    ∃ order', Holds b' order' ∧ (∃ more, order' = order ++ more) ∧ os.length = ss.length ∧
      (∀ s, s ∈ order' ↔ s ∈ order ∨ s ∈ ss) ∧
      ∀ (i : Nat) (s : Bytes), ss[i]? = some s → ∃ o pre post, os[i]? = some o ∧ order' = pre ++ s :: post ∧ o = BitVec.ofNat 32 (table pre).length
  | [], b, b', order, os, hb, h => by
    simp only [Builder.addAll, Option.some.injEq, Prod.mk.injEq] at h
    obtain ⟨rfl, rfl⟩ := h
    exact ⟨order, hb, ⟨[], by simp⟩, rfl, by simp, by simp⟩
  | t :: ss, b, b', order, os, hb, h => by
    simp only [Builder.addAll] at h
    split at h
    · cases h
    next o b1 h1 =>
    split at h
    · cases h
    next os' b2 h2 =>
    injection h with h; injection h with ha hb'; subst ha hb'
    obtain ⟨_, order1, hb1, hor, pre, post, hp, ho⟩ := holds_add _ _ _ _ _ hb h1
    obtain ⟨order2, hb2, ⟨more, hm⟩, hlen, hmem, hall⟩ := holds_addAll ss b1 b2 order1 os' hb1 h2
    refine ⟨order2, hb2, ?_, by simp [hlen], ?_, ?_⟩
    · rcases hor with rfl | rfl
      · exact ⟨more, hm⟩
      · exact ⟨[t] ++ more, by rw [hm]; simp⟩
    · intro s
      rw [hmem s]
      have h1 : s ∈ order1 ↔ s ∈ order ∨ s = t := by
        have ht : t ∈ order1 := by rw [hp]; simp
        rcases hor with rfl | rfl
        · constructor
          · exact .inl
          · rintro (h | rfl)
            · exact h
            · exact ht
        · simp
      rw [h1, List.mem_cons]
      constructor
      · rintro ((h | h) | h)
        · exact .inl h
        · exact .inr (.inl h)
        · exact .inr (.inr h)
      · rintro (h | h | h)
        · exact .inl (.inl h)
        · exact .inl (.inr h)
        · exact .inr h
    · intro i s hi
      cases i with
      | zero =>
        simp at hi
        subst hi
        exact ⟨o, pre, post ++ more, rfl, by rw [hm, hp]; simp, ho⟩
      | succ i =>
        simp only [List.getElem?_cons_succ] at hi ⊢
        exact hall i s hi

/-- Writing pieces of `T` over a buffer of the same length. -/
theorem writes_agree (T : Bytes) : ∀ (l : List (Bytes × BitVec 32)) (B : Bytes), B.length = T.length →
    (∀ e ∈ l, e.2.toNat + e.1.length ≤ T.length ∧ ∀ j, j < e.1.length → T[e.2.toNat + j]? = e.1[j]?) →
    (∀ i, (∃ e ∈ l, e.2.toNat ≤ i ∧ i < e.2.toNat + e.1.length) ∨ B[i]? = T[i]?) →
    l.foldl (fun buf e => (copyAt buf e.2.toNat e.1).1) B = T
  | [], B, hlen, _, hcov => by
    apply List.ext_getElem?
    intro i
    rcases hcov i with ⟨e, he, _⟩ | h
    · simp at he
    · exact h
  | e :: l, B, hlen, hw, hcov => by
    simp only [List.foldl_cons]
    have hew := hw e List.mem_cons_self
    have hn : (copyAt B e.2.toNat e.1).2 = e.1.length := by simp [copyAt]; omega
    apply writes_agree T l
    · rw [copyAt_length _ _ _ (by omega), hlen]
    · intro f hf; exact hw f (List.mem_cons_of_mem _ hf)
    · intro i
      rw [copyAt_get _ _ _ _ (by omega), hn]
      by_cases hi : e.2.toNat ≤ i ∧ i < e.2.toNat + e.1.length
      · right
        rw [if_pos hi]
        have := hew.2 (i - e.2.toNat) (by omega)
        rw [← this]; congr 1; omega
      · rw [if_neg hi]
        rcases hcov i with ⟨f, hf, h⟩ | h
        · rcases List.mem_cons.1 hf with rfl | hf
          · exact absurd h hi
          · exact .inl ⟨f, hf, h⟩
        · exact .inr h

/-- Every byte of a table belongs to a string or is a NUL. -/
theorem table_cover : ∀ (order : List Bytes) (i : Nat), i < (table order).length →
    (∃ pre s post, order = pre ++ s :: post ∧ (table pre).length ≤ i ∧ i < (table pre).length + s.length) ∨
    (table order)[i]? = some 0
  | [], i, h => by simp [table] at h
  | s :: l, i, h => by
    rw [table_cons] at h ⊢
    by_cases h1 : i < s.length
    · exact .inl ⟨[], s, l, rfl, by simp [table], by simp [table]; omega⟩
    · by_cases h2 : i = s.length
      · right; rw [List.getElem?_append_right (by omega), h2]; simp
      · rcases table_cover l (i - s.length - 1) (by simp at h; omega) with ⟨pre, t, post, hp, h3, h4⟩ | h3
        · refine .inl ⟨s :: pre, t, post, by rw [hp]; rfl, ?_, ?_⟩ <;> rw [table_cons] <;> simp <;> omega
        · right
          rw [List.getElem?_append_right (by omega)]
          rw [show i - s.length = (i - s.length - 1) + 1 from by omega, List.getElem?_cons_succ]
          exact h3

/-- The encoding of a builder below 4 GiB does not depend on map iteration order. -/
theorem encode_exact (b : Builder) (order : List Bytes) (entries : List (Bytes × BitVec 32)) (hb : Holds b order)
    (hp : entries.Perm b.strings) (hlen : (table order).length < 2 ^ 32) :
    encodeStrings b.length entries = table order := by
  unfold encodeStrings
  have hl : b.length.toNat = (table order).length := by
    rw [hb.len, BitVec.toNat_ofNat, Nat.mod_eq_of_lt hlen]
  have hoff : ∀ pre s post, order = pre ++ s :: post →
      (BitVec.ofNat 32 (table pre).length).toNat = (table pre).length ∧ table order = table pre ++ (s ++ 0 :: table post) := by
    intro pre s post h
    have : table order = table pre ++ (s ++ 0 :: table post) := by rw [h, table_append, table_cons]
    refine ⟨?_, this⟩
    rw [BitVec.toNat_ofNat]; apply Nat.mod_eq_of_lt
    rw [this] at hlen; simp at hlen; omega
  apply writes_agree
  · rw [List.length_replicate, hl]
  · rintro ⟨s, off⟩ he
    obtain ⟨pre, post, ho, rfl⟩ := (hb.entries s off).1 (hp.mem_iff.1 he)
    obtain ⟨h1, h2⟩ := hoff pre s post ho
    simp only
    rw [h1, h2]
    refine ⟨by simp, ?_⟩
    intro j hj
    rw [List.getElem?_append_right (by omega), Nat.add_sub_cancel_left, List.getElem?_append_left hj]
  · intro i
    by_cases hi : i < (table order).length
    · rcases table_cover order i hi with ⟨pre, s, post, ho, h1, h2⟩ | h
      · left
        refine ⟨(s, BitVec.ofNat 32 (table pre).length), hp.mem_iff.2 ((hb.entries _ _).2 ⟨pre, post, ho, rfl⟩), ?_⟩
        simp only
        rw [(hoff pre s post ho).1]
        exact ⟨h1, h2⟩
      · right
        rw [h, List.getElem?_replicate, if_pos (by omega)]
    · right
      rw [List.getElem?_eq_none (by simp; omega), List.getElem?_eq_none (by omega)]

/-- **C24, round trip** (tables below 4 GiB): after any history of `Add` calls, whatever the iteration order of the
map, the encoded table is accepted, every offset returned by `Add` looks up the string that was added, the empty string
is at offset 0, and two calls got the same offset exactly if they added the same string. -/
theorem builder_roundtrip_partial (ss : List Bytes) (os : List (BitVec 32)) (b : Builder) (entries : List (Bytes × BitVec 32))
    (h : Builder.addAll Builder.new ss = some (os, b)) (hp : entries.Perm b.strings)
    (hsize : (ss.map fun s => s.length + 1).sum + 1 < 2 ^ 32) :
    ∃ st, newStringTable (encodeStrings b.length entries) none = some st ∧
      st.bytes.length = b.length.toNat ∧ os.length = ss.length ∧
      (∀ (i : Nat) (s : Bytes) (o : BitVec 32), ss[i]? = some s → os[i]? = some o → st.lookup o = some s ∧ (s = [] → o = 0)) ∧
      (∀ (i j : Nat) (s t : Bytes) (o p : BitVec 32), ss[i]? = some s → ss[j]? = some t → os[i]? = some o → os[j]? = some p →
        (o = p ↔ s = t)) := by
  obtain ⟨order, hb, _, hol, hmem, hall⟩ := holds_addAll ss _ _ _ _ holds_new h
  -- the table is not longer than the strings added
  have hle : (table order).length ≤ (ss.map fun s => s.length + 1).sum + 1 := by
    have key : ∀ (l m : List Bytes), l.Nodup → (∀ s ∈ l, s = [] ∨ s ∈ m) →
        (table l).length ≤ (m.map fun s => s.length + 1).sum + 1 ∧ ([] ∉ l → (table l).length ≤ (m.map fun s => s.length + 1).sum) := by
      intro l
      induction l with
      | nil => intro m _ _; simp [table]
      | cons x l ih =>
        intro m hn hm
        rw [List.nodup_cons] at hn
        rw [table_cons]
        by_cases hx : x = []
        · subst hx
          have := (ih m hn.2 (fun s hs => hm s (List.mem_cons_of_mem _ hs))).2 hn.1
          simp at this ⊢
          omega
        · have hxm : x ∈ m := (hm x List.mem_cons_self).resolve_left hx
          have hsum : (m.map fun s => s.length + 1).sum = x.length + 1 + ((m.erase x).map fun s => s.length + 1).sum := by
            have := ((List.perm_cons_erase hxm).map fun s : Bytes => s.length + 1).sum_nat
            rw [this]; simp
          have := ih (m.erase x) hn.2 (by
            intro s hs
            rcases hm s (List.mem_cons_of_mem _ hs) with h | h
            · exact .inl h
            · refine .inr ((List.mem_erase_of_ne ?_).2 h)
              rintro rfl; exact hn.1 hs)
          rw [hsum]
          refine ⟨?_, fun hne => ?_⟩
          · have := this.1; simp at this ⊢; omega
          · have := this.2 (fun h => hne (List.mem_cons_of_mem _ h)); simp at this ⊢; omega
    refine (key order ss hb.nodup ?_).1
    intro s hs
    rcases (hmem s).1 hs with h | h
    · left; simpa using h
    · exact .inr h
  have hlt : (table order).length < 2 ^ 32 := by omega
  rw [encode_exact b order entries hb hp hlt]
  have hlast : (table order).getLast? = some 0 := by
    rcases table_last order with h | h
    · exfalso
      have := hb.head
      cases order with
      | nil => simp at this
      | cons x r => rw [table_cons] at h; simp at h
    · exact h
  have hhead : (table order).head? = some 0 := by
    have := hb.head
    cases order with
    | nil => simp at this
    | cons x r => simp at this; subst this; rw [table_cons]; rfl
  have hst : newStringTable (table order) none = some ⟨none, table order⟩ := by
    unfold newStringTable
    rw [hlast, hhead]
    simp
  have hoff : ∀ pre s post, order = pre ++ s :: post →
      (BitVec.ofNat 32 (table pre).length).toNat = (table pre).length ∧ table order = table pre ++ (s ++ 0 :: table post) := by
    intro pre s post h
    have : table order = table pre ++ (s ++ 0 :: table post) := by rw [h, table_append, table_cons]
    refine ⟨?_, this⟩
    rw [BitVec.toNat_ofNat]; apply Nat.mod_eq_of_lt
    rw [this] at hlt; simp at hlt; omega
  refine ⟨⟨none, table order⟩, hst, ?_, hol, ?_, ?_⟩
  · simp only; rw [hb.len, BitVec.toNat_ofNat, Nat.mod_eq_of_lt hlt]
  · intro i s o hi ho
    obtain ⟨o', pre, post, ho', hor, rfl⟩ := hall i s hi
    rw [ho] at ho'
    injection ho' with ho'
    subst ho'
    obtain ⟨h1, h2⟩ := hoff pre s post hor
    have hns : 0#8 ∉ s := hb.nonul s (by rw [hor]; simp)
    constructor
    · rw [lookup_exact (table order) none _ _ s hst (by simp) (by simpa using hlt)]
      by_cases hz : pre = []
      · left
        subst hz
        have := hb.head
        rw [hor] at this
        simp at this
        exact ⟨rfl, this⟩
      · right
        have hpos : 0 < (table pre).length := by
          cases pre with
          | nil => exact absurd rfl hz
          | cons x r => rw [table_cons]; simp; omega
        refine ⟨?_, ?_⟩
        · intro hc
          have := congrArg BitVec.toNat hc
          rw [h1, show (0 : BitVec 32).toNat = 0 from rfl] at this
          omega
        · rw [h1]
          exact ⟨table pre, table post, h2, rfl, hns, table_last pre⟩
    · rintro rfl
      have hd := hb.head
      have : pre = [] := by
        cases order with
        | nil => simp at hd
        | cons x r =>
          simp at hd
          subst hd
          exact split_unique _ pre post [] r [] hb.nodup hor rfl
      subst this; rfl
  · intro i j s t o p hi hj ho hp
    obtain ⟨o', pre, post, ho', hor, rfl⟩ := hall i s hi
    obtain ⟨p', pre', post', hp', hor', rfl⟩ := hall j t hj
    rw [ho] at ho'; injection ho' with ho'; subst ho'
    rw [hp] at hp'; injection hp' with hp'; subst hp'
    obtain ⟨h1, h2⟩ := hoff pre s post hor
    obtain ⟨h1', h2'⟩ := hoff pre' t post' hor'
    constructor
    · intro he
      have hlen := congrArg BitVec.toNat he
      rw [h1, h1'] at hlen
      -- equal offsets: the same string starts there
      have e := h2.symm.trans h2'
      have e2 := (List.append_inj e hlen).2
      have u1 := (untilNul_some (s ++ 0 :: table post) s).2 ⟨hb.nonul s (by rw [hor]; simp), _, rfl⟩
      have u2 := (untilNul_some (t ++ 0 :: table post') t).2 ⟨hb.nonul t (by rw [hor']; simp), _, rfl⟩
      rw [e2, u2] at u1
      injection u1 with u1
      exact u1.symm
    · rintro rfl
      rw [split_unique order pre post pre' post' s hb.nodup hor hor']

/-- What is missing for the full C24: the builder does not notice that a table exceeds 32 bits. After adding a string of
2^32-2 bytes the next string gets offset 0, the offset of the empty string. -/
theorem builder_wraps_counterexample (big s : Bytes) (hbig : big.length = 2 ^ 32 - 2) (h0 : 0#8 ∉ big) (hs : 0#8 ∉ s)
    (hne : s ≠ []) (hne' : s ≠ big) :
    ∃ os b, Builder.addAll Builder.new [big, s] = some (os, b) ∧ os[1]? = some 0 := by
  have hb : big ≠ [] := by rintro rfl; simp at hbig
  have l1 : (([], (0 : BitVec 32)) :: ([] : List (Bytes × BitVec 32))).lookup big = none := by
    simp only [List.lookup_cons, beq_false_of_ne hb, List.lookup_nil]
  have l2 : ((big, (1 : BitVec 32)) :: ([], (0 : BitVec 32)) :: ([] : List (Bytes × BitVec 32))).lookup s = none := by
    simp only [List.lookup_cons, beq_false_of_ne hne', beq_false_of_ne hne, List.lookup_nil]
  have e1 : Builder.new.length = 1 := by decide
  have e2 : Builder.new.strings = [([], 0)] := rfl
  have a1 : Builder.new.add big = some (1, ⟨0, [(big, 1), ([], 0)]⟩) := by
    unfold Builder.add
    rw [if_neg h0, e2, l1]
    simp only [Builder.append, e1, e2, hbig]
    rfl
  have a2 : (⟨0, [(big, 1), ([], 0)]⟩ : Builder).add s = some ((⟨0, [(big, 1), ([], 0)]⟩ : Builder).append s) := by
    unfold Builder.add
    rw [if_neg hs, l2]
  refine ⟨[1, 0], ((⟨0, [(big, 1), ([], 0)]⟩ : Builder).append s).2, ?_, rfl⟩
  simp only [Builder.addAll, a1, a2]
  rfl

/-- Non-vacuity: three additions, two of the same string. -/
example : ∃ os b, Builder.addAll Builder.new [[1, 2], [3], [1, 2], []] = some (os, b) ∧ os = [1, 4, 1, 0] ∧
    encodeStrings b.length b.strings.reverse = [0, 1, 2, 0, 3, 0] := ⟨_, _, rfl, by decide, by decide⟩
/-- Non-vacuity: split tables. -/
example : (⟨some [0, 1, 0], [2, 0]⟩ : StrTab).lookup 3 = some [2] := by decide
example : newStringTable [2, 0] (some [0, 1, 0]) = some ⟨some [0, 1, 0], [2, 0]⟩ := by decide
example : (⟨none, [0, 1, 2, 0]⟩ : StrTab).lookup 2 = none := by decide

end Ebpf.Btf
