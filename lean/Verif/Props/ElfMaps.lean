import Verif.Spec.ElfMaps
/-!
# Proofs about sections, license, version and maps defined by structs (C106)
-/
namespace Ebpf.ElfMaps

open Spec

/-! ## Sections -/

theorem prefix_iff {p n : Name} : p.isPrefixOf n = true ↔ ∃ r, n = p ++ r := by
  rw [List.isPrefixOf_iff_prefix]
  exact ⟨fun ⟨r, h⟩ => ⟨r, h.symm⟩, fun ⟨r, h⟩ => ⟨r, h.symm⟩⟩

theorem classify_maps {s : Sec} : classify s = .maps ↔ Maps s := by
  unfold classify Maps
  constructor
  · intro h
    split at h
    · cases h
    · split at h
      · cases h
      · split at h
        · rename_i h1; exact prefix_iff.mp h1
        · repeat' (split at h)
          all_goals cases h
  · rintro ⟨r, h⟩
    rw [h]
    rfl

theorem keep_iff {s : Sym} : keep s = true ↔ Named s := by
  unfold keep Named
  simp

/-! ## Symbols -/

theorem mem_assignSymbols {idx : Nat} {s : Sym} {l m : List Sym} : s ∈ assignSymbols idx l m ↔
    (s.sec = idx ∧ Named s ∧ ∃ a b, l = a ++ s :: b ∧ ∀ t ∈ b, Named t → t.sec = idx → t.value ≠ s.value) ∨
    (s ∈ m ∧ ∀ t ∈ l, Named t → t.sec = idx → t.value ≠ s.value) := by
  induction l generalizing m with
  | nil =>
    rw [assignSymbols]
    constructor
    · intro h; exact Or.inr ⟨h, by intro t ht; cases ht⟩
    · rintro (⟨_, _, a, b, h, _⟩ | h)
      · cases a <;> cases h
      · exact h.1
  | cons x r ih =>
    rw [assignSymbols]
    split
    · rename_i hx
      have hk := keep_iff.mp hx.2
      rw [ih]
      constructor
      · rintro (⟨h1, h2, a, b, h3, h4⟩ | ⟨h1, h2⟩)
        · exact Or.inl ⟨h1, h2, x :: a, b, by rw [h3]; rfl, h4⟩
        · rcases List.mem_cons.mp h1 with rfl | h1
          · exact Or.inl ⟨hx.1, hk, [], r, rfl, h2⟩
          · obtain ⟨h1, h3⟩ := List.mem_filter.mp h1
            refine Or.inr ⟨h1, ?_⟩
            intro t ht hn hs
            rcases List.mem_cons.mp ht with rfl | ht
            · have := of_decide_eq_true h3
              exact fun hc => this hc.symm
            · exact h2 t ht hn hs
      · rintro (⟨h1, h2, a, b, h3, h4⟩ | ⟨h1, h2⟩)
        · cases a with
          | nil =>
            obtain ⟨rfl, rfl⟩ := List.cons.inj h3
            exact Or.inr ⟨List.mem_cons_self, h4⟩
          | cons y a =>
            obtain ⟨rfl, h3'⟩ := List.cons.inj h3
            exact Or.inl ⟨h1, h2, a, b, h3', h4⟩
        · refine Or.inr ⟨List.mem_cons_of_mem _ (List.mem_filter.mpr ⟨h1, ?_⟩), fun t ht => h2 t (List.mem_cons_of_mem _ ht)⟩
          exact decide_eq_true (fun hc => h2 x List.mem_cons_self hk hx.1 hc.symm)
    · rename_i hx
      have hx' : ¬ (Named x ∧ x.sec = idx) := fun h => hx ⟨h.2, keep_iff.mpr h.1⟩
      rw [ih]
      constructor
      · rintro (⟨h1, h2, a, b, h3, h4⟩ | ⟨h1, h2⟩)
        · exact Or.inl ⟨h1, h2, x :: a, b, by rw [h3]; rfl, h4⟩
        · refine Or.inr ⟨h1, ?_⟩
          intro t ht hn hs
          rcases List.mem_cons.mp ht with rfl | ht
          · exact absurd ⟨hn, hs⟩ hx'
          · exact h2 t ht hn hs
      · rintro (⟨h1, h2, a, b, h3, h4⟩ | ⟨h1, h2⟩)
        · cases a with
          | nil =>
            obtain ⟨rfl, rfl⟩ := List.cons.inj h3
            exact absurd ⟨h2, h1⟩ hx'
          | cons y a =>
            obtain ⟨rfl, h3'⟩ := List.cons.inj h3
            exact Or.inl ⟨h1, h2, a, b, h3', h4⟩
        · exact Or.inr ⟨h1, fun t ht => h2 t (List.mem_cons_of_mem _ ht)⟩

theorem assignSymbols_nodup {idx : Nat} {l m : List Sym} (h : m.Pairwise (fun a b => a.value ≠ b.value)) :
    (assignSymbols idx l m).Pairwise (fun a b => a.value ≠ b.value) := by
  induction l generalizing m with
  | nil => exact h
  | cons x r ih =>
    rw [assignSymbols]
    split
    · refine ih (List.pairwise_cons.mpr ⟨?_, h.filter _⟩)
      intro t ht hc
      exact of_decide_eq_true (List.mem_filter.mp ht).2 hc.symm
    · exact ih h

/-- All symbols with their sections. -/
def flat (l : List (Sec × List Sym)) : List (Sec × Sym) := l.flatMap fun x => x.2.map fun s => (x.1, s)

theorem flat_cons (sec : Sec) (xs : List Sym) (l : List (Sec × List Sym)) : flat ((sec, xs) :: l) = xs.map (fun s => (sec, s)) ++ flat l := rfl

theorem flat_perm {l m : List (Sec × List Sym)} (h : l.Perm m) : (flat l).Perm (flat m) := h.flatMap_right _

theorem flat_shuffled {l m : List (Sec × List Sym)} (h : Shuffled l m) : (flat l).Perm (flat m) := by
  induction h with
  | nil => exact List.Perm.refl _
  | cons sec xs ys l m hp _ ih => rw [flat_cons, flat_cons]; exact (hp.map _).append ih

theorem flat_visit {o : Obj} {l : List (Sec × List Sym)} (h : Visit o l) : (flat l).Perm (flat (mapSections o)) := by
  obtain ⟨m, h1, h2⟩ := h
  exact (flat_shuffled h1).trans (flat_perm h2)

theorem mem_mapSections {o : Obj} {x : Sec × List Sym} :
    x ∈ mapSections o ↔ ∃ i, o.sections[i]? = some x.1 ∧ Maps x.1 ∧ x.2 = assignSymbols i o.symbols [] := by
  unfold mapSections
  rw [List.mem_filterMap]
  constructor
  · rintro ⟨⟨sec, i⟩, h1, h2⟩
    rw [List.mem_zipIdx_iff_getElem?] at h1
    simp only at h1 h2
    split at h2
    · rename_i hc
      cases h2
      exact ⟨i, h1, classify_maps.mp hc, rfl⟩
    · cases h2
  · rintro ⟨i, h1, h2, h3⟩
    refine ⟨(x.1, i), List.mem_zipIdx_iff_getElem?.mpr h1, ?_⟩
    simp only
    rw [if_pos (classify_maps.mpr h2), ← h3]

theorem mem_flat {l : List (Sec × List Sym)} {sec : Sec} {s : Sym} : (sec, s) ∈ flat l ↔ ∃ xs, (sec, xs) ∈ l ∧ s ∈ xs := by
  unfold flat
  rw [List.mem_flatMap]
  constructor
  · rintro ⟨x, h1, h2⟩
    obtain ⟨t, h3, h4⟩ := List.mem_map.mp h2
    cases h4
    exact ⟨x.2, h1, h3⟩
  · rintro ⟨xs, h1, h2⟩
    exact ⟨_, h1, List.mem_map.mpr ⟨s, h2, rfl⟩⟩

theorem mem_flat_mapSections {o : Obj} {sec : Sec} {s : Sym} : (sec, s) ∈ flat (mapSections o) ↔ Defines o sec s := by
  rw [mem_flat]
  constructor
  · rintro ⟨xs, h1, h2⟩
    obtain ⟨i, h3, h4, h5⟩ := mem_mapSections.mp h1
    simp only at h3 h4 h5
    rw [h5, mem_assignSymbols] at h2
    rcases h2 with ⟨rfl, h6, h7⟩ | ⟨h6, _⟩
    · exact ⟨h3, h4, h6, h7⟩
    · cases h6
  · rintro ⟨h1, h2, h3, h4⟩
    exact ⟨_, mem_mapSections.mpr ⟨s.sec, h1, h2, rfl⟩, mem_assignSymbols.mpr (Or.inl ⟨rfl, h3, h4⟩)⟩

theorem flat_nodup (o : Obj) : ((flat (mapSections o)).map (·.2)).Nodup := by
  have h : ∀ (l : List Sec) (k : Nat), ((flat ((l.zipIdx k).filterMap fun x => if classify x.1 = .maps then some (x.1, assignSymbols x.2 o.symbols []) else none)).map (·.2)).Nodup ∧
      ∀ s ∈ (flat ((l.zipIdx k).filterMap fun x => if classify x.1 = .maps then some (x.1, assignSymbols x.2 o.symbols []) else none)).map (·.2), k ≤ s.sec := by
    intro l
    induction l with
    | nil => intro k; exact ⟨List.nodup_nil, by intro s hs; cases hs⟩
    | cons x l ih =>
      intro k
      obtain ⟨h1, h2⟩ := ih (k + 1)
      rw [List.zipIdx_cons, List.filterMap_cons]
      by_cases hc : classify x = .maps
      · simp only [if_pos hc]
        rw [flat_cons, List.map_append, List.map_map]
        have e : List.map ((fun (y : Sec × Sym) => y.2) ∘ fun s => (x, s)) (assignSymbols k o.symbols []) = assignSymbols k o.symbols [] := by
          have : ((fun (y : Sec × Sym) => y.2) ∘ fun s => (x, s)) = _root_.id := rfl
          rw [this, List.map_id]
        rw [e]
        have hk : ∀ s ∈ assignSymbols k o.symbols [], s.sec = k := by
          intro s hs
          rcases mem_assignSymbols.mp hs with h3 | h3
          · exact h3.1
          · cases h3.1
        refine ⟨List.nodup_append.mpr ⟨?_, h1, ?_⟩, ?_⟩
        · refine (assignSymbols_nodup (List.Pairwise.nil)).imp ?_
          intro a b hab hc
          exact hab (by rw [hc])
        · intro a ha b hb hc
          have h3 := hk a ha
          have h4 := h2 b hb
          rw [hc] at h3
          omega
        · intro s hs
          rcases List.mem_append.mp hs with hs | hs
          · exact Nat.le_of_eq (hk s hs).symm
          · exact Nat.le_of_succ_le (h2 s hs)
      · simp only [if_neg hc]
        exact ⟨h1, fun s hs => Nat.le_of_succ_le (h2 s hs)⟩
  exact (h o.sections 0).1

/-! ## One symbol -/

theorem readU32_word {big : Bool} {a b c d : BitVec 8} {r : Bytes} {v : BitVec 32} {r' : Bytes} (h : readU32 big (a :: b :: c :: d :: r) = some (v, r')) :
    v.toNat = word big a b c d ∧ r' = r := by
  rw [readU32] at h
  obtain ⟨h1, h2⟩ := Prod.mk.inj (Option.some.inj h)
  refine ⟨?_, h2.symm⟩
  have ha := a.isLt
  have hb := b.isLt
  have hc := c.isLt
  have hd := d.isLt
  subst h1
  unfold word
  have app : ∀ {w : Nat} (x : BitVec w) (y : BitVec 8), (x ++ y).toNat = x.toNat * 256 + y.toNat := by
    intro w x y
    rw [BitVec.toNat_append, ← Nat.shiftLeft_add_eq_or_of_lt y.isLt, Nat.shiftLeft_eq]
  cases big with
  | true =>
    simp only [if_true, app]
  | false =>
    simp only [Bool.false_eq_true, if_false, app]

theorem readU32_some {big : Bool} {b : Bytes} {v : BitVec 32} {r : Bytes} (h : readU32 big b = some (v, r)) : ∃ a0 a1 a2 a3, b = a0 :: a1 :: a2 :: a3 :: r ∧ v.toNat = word big a0 a1 a2 a3 := by
  match b with
  | a0 :: a1 :: a2 :: a3 :: r' =>
    obtain ⟨h1, h2⟩ := readU32_word h
    exact ⟨a0, a1, a2, a3, by rw [h2], h1⟩
  | [] => cases h
  | [_] => cases h
  | [_, _] => cases h
  | [_, _, _] => cases h

theorem readFields_some {big : Bool} {b : Bytes} {t ks vs me fl : BitVec 32} {rest : Bytes} (h : readFields big b = .ok (t, ks, vs, me, fl, rest)) :
    ∃ a0 a1 a2 a3 b0 b1 b2 b3 c0 c1 c2 c3 d0 d1 d2 d3 e0 e1 e2 e3,
      b = [a0, a1, a2, a3, b0, b1, b2, b3, c0, c1, c2, c3, d0, d1, d2, d3, e0, e1, e2, e3] ++ rest ∧
      t.toNat = word big a0 a1 a2 a3 ∧ ks.toNat = word big b0 b1 b2 b3 ∧ vs.toNat = word big c0 c1 c2 c3 ∧
      me.toNat = word big d0 d1 d2 d3 ∧ fl.toNat = word big e0 e1 e2 e3 := by
  unfold readFields at h
  split at h
  · cases h
  · rename_i v1 r1 h1
    split at h
    · cases h
    · rename_i v2 r2 h2
      split at h
      · cases h
      · rename_i v3 r3 h3
        split at h
        · cases h
        · rename_i v4 r4 h4
          split at h
          · cases h
          · rename_i v5 r5 h5
            cases h
            obtain ⟨a0, a1, a2, a3, rfl, w1⟩ := readU32_some h1
            obtain ⟨b0, b1, b2, b3, rfl, w2⟩ := readU32_some h2
            obtain ⟨c0, c1, c2, c3, rfl, w3⟩ := readU32_some h3
            obtain ⟨d0, d1, d2, d3, rfl, w4⟩ := readU32_some h4
            obtain ⟨e0, e1, e2, e3, rfl, w5⟩ := readU32_some h5
            exact ⟨a0, a1, a2, a3, b0, b1, b2, b3, c0, c1, c2, c3, d0, d1, d2, d3, e0, e1, e2, e3, rfl, w1, w2, w3, w4, w5⟩

theorem readFields_long {big : Bool} {b : Bytes} (h : 20 ≤ b.length) : ∃ x, readFields big b = .ok x := by
  match b with
  | a0 :: a1 :: a2 :: a3 :: b0 :: b1 :: b2 :: b3 :: c0 :: c1 :: c2 :: c3 :: d0 :: d1 :: d2 :: d3 :: e0 :: e1 :: e2 :: e3 :: r => exact ⟨_, rfl⟩
  | [] | [_] | [_,_] | [_,_,_] | [_,_,_,_] | [_,_,_,_,_] | [_,_,_,_,_,_] | [_,_,_,_,_,_,_] | [_,_,_,_,_,_,_,_] | [_,_,_,_,_,_,_,_,_]
  | [_,_,_,_,_,_,_,_,_,_] | [_,_,_,_,_,_,_,_,_,_,_] | [_,_,_,_,_,_,_,_,_,_,_,_] | [_,_,_,_,_,_,_,_,_,_,_,_,_] | [_,_,_,_,_,_,_,_,_,_,_,_,_,_]
  | [_,_,_,_,_,_,_,_,_,_,_,_,_,_,_] | [_,_,_,_,_,_,_,_,_,_,_,_,_,_,_,_] | [_,_,_,_,_,_,_,_,_,_,_,_,_,_,_,_,_] | [_,_,_,_,_,_,_,_,_,_,_,_,_,_,_,_,_,_]
  | [_,_,_,_,_,_,_,_,_,_,_,_,_,_,_,_,_,_,_] => simp at h

theorem sectionVars_ok {ds : Datasec} {m : List (Name × List Name)} : (∃ v, sectionVars ds m = .ok v) ↔ none ∉ ds := by
  induction ds generalizing m with
  | nil => exact ⟨fun _ h => (by cases h), fun _ => ⟨m, rfl⟩⟩
  | cons x ds ih =>
    cases x with
    | none => exact ⟨fun ⟨v, h⟩ => (by cases h), fun h => absurd List.mem_cons_self h⟩
    | some x => rw [sectionVars, ih]; simp

theorem sectionVars_lookup {ds : Datasec} {m v : List (Name × List Name)} (h : sectionVars ds m = .ok v) (n : Name) :
    (∃ a b t, ds = a ++ some (n, t) :: b ∧ (∀ t', some (n, t') ∉ b) ∧ v.lookup n = some t) ∨ ((∀ t, some (n, t) ∉ ds) ∧ v.lookup n = m.lookup n) := by
  induction ds generalizing m with
  | nil => cases h; exact Or.inr ⟨(by intro t ht; cases ht), rfl⟩
  | cons x ds ih =>
    cases x with
    | none => cases h
    | some x =>
      rw [sectionVars] at h
      rcases ih h with ⟨a, b, t, h1, h2⟩ | ⟨h1, h2⟩
      · exact Or.inl ⟨some x :: a, b, t, by rw [h1]; rfl, h2⟩
      · obtain ⟨k, t⟩ := x
        by_cases hk : n = k
        · subst hk
          left
          refine ⟨[], ds, t, rfl, h1, ?_⟩
          rw [h2]; simp [List.lookup]
        · right
          refine ⟨?_, ?_⟩
          · intro t' ht
            rcases List.mem_cons.mp ht with hc | hc
            · cases hc; exact hk rfl
            · exact h1 t' hc
          · have : (n == k) = false := by simp [hk]
            rw [h2, List.lookup, this]

theorem last_unique {n : Name} {ds a b a' b' : Datasec} {t t' : List Name} (h : ds = a ++ some (n, t) :: b) (hb : ∀ x, some (n, x) ∉ b)
    (h' : ds = a' ++ some (n, t') :: b') (hb' : ∀ x, some (n, x) ∉ b') : t = t' := by
  rw [h] at h'
  rcases List.append_eq_append_iff.mp h' with ⟨c, h1, h2⟩ | ⟨c, h1, h2⟩
  · cases c with
    | nil => simp at h2; exact h2.1
    | cons y c =>
      rw [List.cons_append, List.cons.injEq] at h2
      exact absurd (by rw [h2.2]; exact List.mem_append_right _ List.mem_cons_self) (hb t')
  · cases c with
    | nil => simp at h2; exact h2.1.symm
    | cons y c =>
      rw [List.cons_append, List.cons.injEq] at h2
      exact absurd (by rw [h2.2]; exact List.mem_append_right _ List.mem_cons_self) (hb' t)

theorem tags_iff {o : Obj} {sec : Sec} {v : List (Name × List Name)} (h : varsOf (o.btf sec.name) = .ok v) (n : Name) (tags : List Name) :
    TagsOf o sec n tags ↔ tagsOf v n = tags := by
  unfold varsOf at h
  unfold tagsOf TagsOf
  cases hb : o.btf sec.name with
  | none =>
    rw [hb] at h
    cases h
    constructor
    · rintro (⟨_, _, _, h1, _⟩ | ⟨h1, _⟩)
      · cases h1
      · rw [h1]; rfl
    · intro h1
      exact Or.inr ⟨h1.symm, by intro ds t hd; cases hd⟩
  | some ds =>
    rw [hb] at h
    simp only at h
    rcases sectionVars_lookup h n with ⟨a, b, t, h1, h2, h3⟩ | ⟨h1, h2⟩
    · rw [h3]
      constructor
      · rintro (⟨ds', a', b', h4, h5, h6⟩ | ⟨_, h4⟩)
        · cases h4
          exact last_unique h1 h2 h5 h6
        · exact absurd (by rw [h1]; exact List.mem_append_right _ List.mem_cons_self) (h4 ds t rfl)
      · intro h4
        simp only at h4
        subst h4
        exact Or.inl ⟨ds, a, b, rfl, h1, h2⟩
    · rw [h2]
      constructor
      · rintro (⟨ds', a', b', h4, h5, h6⟩ | ⟨h4, _⟩)
        · cases h4
          exact absurd (by rw [h5]; exact List.mem_append_right _ List.mem_cons_self) (h1 tags)
        · rw [h4]; rfl
      · intro h4
        exact Or.inr ⟨h4.symm, fun ds' t hd => by cases hd; exact h1 t⟩

theorem varsOf_ok {o : Obj} {sec : Sec} : (∃ v, varsOf (o.btf sec.name) = .ok v) ↔ OnlyVars o sec := by
  unfold varsOf OnlyVars
  cases hb : o.btf sec.name with
  | none => exact ⟨fun _ ds h => (by cases h), fun _ => ⟨[], rfl⟩⟩
  | some ds =>
    simp only
    rw [sectionVars_ok]
    exact ⟨fun h ds' hd => by cases hd; exact h, fun h => h ds rfl⟩

theorem allowed_iff {c : Char} :
    validChar c = true ↔ Allowed c := by
  unfold Allowed validChar
  simp only [Bool.or_eq_true, Bool.and_eq_true, decide_eq_true_eq]
  have h (a b : Char) : a ≤ b ↔ a.toNat ≤ b.toNat := Iff.rfl
  simp only [h]
  have e1 : 'A'.toNat = 65 := rfl
  have e2 : 'Z'.toNat = 90 := rfl
  have e3 : 'a'.toNat = 97 := rfl
  have e4 : 'z'.toNat = 122 := rfl
  have e5 : '0'.toNat = 48 := rfl
  have e6 : '9'.toNat = 57 := rfl
  rw [e1, e2, e3, e4, e5, e6]
  constructor
  · rintro ((((h | h) | h) | h) | h)
    · exact Or.inl h
    · exact Or.inr (Or.inl h)
    · exact Or.inr (Or.inr (Or.inl h))
    · exact Or.inr (Or.inr (Or.inr (Or.inl h)))
    · exact Or.inr (Or.inr (Or.inr (Or.inr h)))
  · rintro (h | h | h | h | h)
    · exact Or.inl (Or.inl (Or.inl (Or.inl h)))
    · exact Or.inl (Or.inl (Or.inl (Or.inr h)))
    · exact Or.inl (Or.inl (Or.inr h))
    · exact Or.inl (Or.inr h)
    · exact Or.inr h

theorem sanitized_iff {n m : Name} : Sanitized n m ↔ sanitizeName n = m := by
  constructor
  · intro h
    induction h with
    | nil => rfl
    | keep c n m hc _ ih => unfold sanitizeName at ih ⊢; rw [List.filter_cons_of_pos (p := validChar) (allowed_iff.mpr hc), ih]
    | drop c n m hc _ ih => unfold sanitizeName at ih ⊢; rw [List.filter_cons_of_neg (p := validChar) (fun h => hc (allowed_iff.mp h)), ih]
  · rintro rfl
    induction n with
    | nil => exact .nil
    | cons c n ih =>
      unfold sanitizeName at ih ⊢
      by_cases hc : Allowed c
      · rw [List.filter_cons_of_pos (p := validChar) (allowed_iff.mpr hc)]; exact .keep _ _ _ hc ih
      · rw [List.filter_cons_of_neg (p := validChar) (fun h => hc (allowed_iff.mp h))]; exact .drop _ _ _ hc ih

/-- The symbol is loaded as this spec. -/
def Parsed (o : Obj) (sec : Sec) (s : Sym) (sp : MapSpec) : Prop :=
  ∃ vars, varsOf (o.btf sec.name) = .ok vars ∧ loadSymbol o.big sec vars s [] = .ok [(s.name, sp)]

/-- The checks of a symbol, in arithmetic. -/
theorem bounds_iff {sec : Sec} {s : Sym} :
    (¬ (s.value.toNat > 0xffffffff ∨ s.size.toNat > 0xffffffff) ∧ ¬ (s.value + s.size).toNat > sec.size.toNat) ↔
    (s.value.toNat < 2 ^ 32 ∧ s.size.toNat < 2 ^ 32 ∧ s.value.toNat + s.size.toNat ≤ sec.size.toNat) := by
  rw [BitVec.toNat_add]
  omega

theorem loadSymbol_eq {big : Bool} {sec : Sec} {vars : List (Name × List Name)} {s : Sym} {maps m : List (Name × MapSpec)} :
    loadSymbol big sec vars s maps = .ok m ↔ maps.lookup s.name = none ∧ ∃ sp, loadSymbol big sec vars s [] = .ok [(s.name, sp)] ∧ m = (s.name, sp) :: maps := by
  unfold loadSymbol
  have e : (List.lookup s.name ([] : List (Name × MapSpec))).isSome = false := rfl
  rw [e]
  simp only [Bool.false_eq_true, if_false]
  cases hl : maps.lookup s.name with
  | some x => simp
  | none =>
    simp only [Option.isSome_none, Bool.false_eq_true, if_false, true_and]
    split
    · simp
    · split
      · simp
      · split
        · simp
        · constructor
          · intro h
            cases h
            exact ⟨_, rfl, rfl⟩
          · rintro ⟨sp, h1, h2⟩
            cases h1
            rw [h2]

theorem parsed_sound {o : Obj} {sec : Sec} {s : Sym} {sp : MapSpec} (h : Parsed o sec s sp) : Fits sec s ∧ OnlyVars o sec ∧ Describes o sec s sp := by
  obtain ⟨vars, h1, h2⟩ := h
  unfold loadSymbol at h2
  rw [if_neg (by intro hc; cases hc)] at h2
  split at h2
  · cases h2
  · rename_i hb1
    split at h2
    · cases h2
    · rename_i hb2
      split at h2
      · cases h2
      · rename_i t ks vs me fl b hr
        cases h2
        obtain ⟨a0, a1, a2, a3, b0, b1, b2, b3, c0, c1, c2, c3, d0, d1, d2, d3, e0, e1, e2, e3, hd, w1, w2, w3, w4, w5⟩ := readFields_some hr
        obtain ⟨g1, g2, g3⟩ := bounds_iff.mp ⟨hb1, hb2⟩
        refine ⟨⟨g1, g2, g3, _, rfl, ?_⟩, varsOf_ok.mp ⟨vars, h1⟩, a0, a1, a2, a3, b0, b1, b2, b3, c0, c1, c2, c3, d0, d1, d2, d3, e0, e1, e2, e3, b, hd.symm,
          w1, w2, w3, w4, w5, ?_, ?_, sanitized_iff.mpr rfl, (tags_iff h1 _ _).mpr rfl⟩
        · rw [show (sec.data.drop s.value.toNat).take s.size.toNat = _ from hd]
          simp
        · intro hn; rw [hn]; rfl
        · intro hn
          unfold extraOf
          rw [if_pos (List.length_pos_iff.mpr hn)]

theorem parsed_complete {o : Obj} {sec : Sec} {s : Sym} (hf : Fits sec s) (ho : OnlyVars o sec) : ∃ sp, Parsed o sec s sp := by
  obtain ⟨vars, hv⟩ := varsOf_ok.mpr ho
  obtain ⟨g1, g2, g3, b, hb, hl⟩ := hf
  obtain ⟨hb1, hb2⟩ := bounds_iff.mpr ⟨g1, g2, g3⟩
  rw [hb] at hl
  obtain ⟨⟨t, ks, vs, me, fl, r⟩, hr⟩ := readFields_long (big := o.big) hl
  refine ⟨⟨sanitizeName s.name, t, ks, vs, me, fl, extraOf r, tagsOf vars s.name⟩, vars, hv, ?_⟩
  unfold loadSymbol
  rw [if_neg (by intro hc; cases hc), if_neg hb1, if_neg hb2]
  rw [show symbolData sec s = (sec.data.drop s.value.toNat).take s.size.toNat from rfl, hr]

theorem describes_unique {o : Obj} {sec : Sec} {s : Sym} {m m' : MapSpec} (ho : OnlyVars o sec) (h : Describes o sec s m) (h' : Describes o sec s m') : m = m' := by
  obtain ⟨a0, a1, a2, a3, b0, b1, b2, b3, c0, c1, c2, c3, d0, d1, d2, d3, e0, e1, e2, e3, rest, hb, w1, w2, w3, w4, w5, x1, x2, n, t⟩ := h
  obtain ⟨a0', a1', a2', a3', b0', b1', b2', b3', c0', c1', c2', c3', d0', d1', d2', d3', e0', e1', e2', e3', rest', hb', w1', w2', w3', w4', w5', x1', x2', n', t'⟩ := h'
  unfold BytesOf at hb hb'
  rw [← hb'] at hb
  simp only [List.cons_append, List.nil_append, List.cons.injEq] at hb
  obtain ⟨rfl, rfl, rfl, rfl, rfl, rfl, rfl, rfl, rfl, rfl, rfl, rfl, rfl, rfl, rfl, rfl, rfl, rfl, rfl, rfl, rfl⟩ := hb
  obtain ⟨vars, hv⟩ := varsOf_ok.mpr ho
  cases m
  cases m'
  simp only at *
  rw [sanitized_iff] at n n'
  rw [tags_iff hv] at t t'
  have ex : ∀ {e e' : Option Bytes}, (rest = [] → e = none) → (rest ≠ [] → e = some rest) → (rest = [] → e' = none) → (rest ≠ [] → e' = some rest) → e = e' := by
    intro e e' h1 h2 h3 h4
    by_cases hr : rest = []
    · rw [h1 hr, h3 hr]
    · rw [h2 hr, h4 hr]
  rw [MapSpec.mk.injEq]
  exact ⟨n.symm.trans n', BitVec.eq_of_toNat_eq (w1.trans w1'.symm), BitVec.eq_of_toNat_eq (w2.trans w2'.symm), BitVec.eq_of_toNat_eq (w3.trans w3'.symm),
    BitVec.eq_of_toNat_eq (w4.trans w4'.symm), BitVec.eq_of_toNat_eq (w5.trans w5'.symm), ex x1 x2 x1' x2', t.symm.trans t'⟩

/-! ## All symbols -/

/-- The symbols are loaded one after the other. -/
inductive Run (o : Obj) : List (Sec × Sym) → List (Name × MapSpec) → List (Name × MapSpec) → Prop
  | nil (m : List (Name × MapSpec)) : Run o [] m m
  | cons (sec : Sec) (s : Sym) (r : List (Sec × Sym)) (m : List (Name × MapSpec)) (sp : MapSpec) (m' : List (Name × MapSpec)) :
      m.lookup s.name = none → Parsed o sec s sp → Run o r ((s.name, sp) :: m) m' → Run o ((sec, s) :: r) m m'

theorem run_append {o : Obj} {l l' : List (Sec × Sym)} {m m' : List (Name × MapSpec)} : Run o (l ++ l') m m' ↔ ∃ k, Run o l m k ∧ Run o l' k m' := by
  induction l generalizing m with
  | nil =>
    constructor
    · intro h; exact ⟨m, .nil m, h⟩
    · rintro ⟨k, h1, h2⟩; cases h1; exact h2
  | cons x l ih =>
    constructor
    · intro h
      cases h with
      | cons sec s r _ sp _ h1 h2 h3 =>
        obtain ⟨k, h4, h5⟩ := ih.mp h3
        exact ⟨k, .cons _ _ _ _ _ _ h1 h2 h4, h5⟩
    · rintro ⟨k, h1, h2⟩
      cases h1 with
      | cons sec s r _ sp _ h3 h4 h5 => exact .cons _ _ _ _ _ _ h3 h4 (ih.mpr ⟨k, h5, h2⟩)

theorem loadSymbols_iff {o : Obj} {sec : Sec} {vars : List (Name × List Name)} (hv : varsOf (o.btf sec.name) = .ok vars) {xs : List Sym} {m m' : List (Name × MapSpec)} :
    loadSymbols o.big sec vars xs m = .ok m' ↔ Run o (xs.map fun s => (sec, s)) m m' := by
  induction xs generalizing m with
  | nil =>
    constructor
    · intro h; cases h; exact .nil _
    · intro h; cases h; rfl
  | cons s xs ih =>
    rw [loadSymbols, List.map_cons]
    constructor
    · intro h
      split at h
      · cases h
      · rename_i k hk
        obtain ⟨h1, sp, h2, h3⟩ := loadSymbol_eq.mp hk
        rw [h3] at h
        exact .cons _ _ _ _ sp _ h1 ⟨vars, hv, h2⟩ (ih.mp h)
    · intro h
      cases h with
      | cons _ _ r _ sp _ h1 h2 h3 =>
        obtain ⟨vars', hv', h2⟩ := h2
        rw [hv] at hv'
        cases hv'
        rw [loadSymbol_eq.mpr ⟨h1, sp, h2, rfl⟩]
        exact ih.mpr h3

/-- The sections can be loaded. -/
def SecsOk (o : Obj) (l : List (Sec × List Sym)) : Prop := ∀ x ∈ l, x.2 ≠ [] ∧ x.1.direct = true ∧ OnlyVars o x.1

theorem loadMaps_iff {o : Obj} {l : List (Sec × List Sym)} {m m' : List (Name × MapSpec)} : loadMaps o l m = .ok m' ↔ SecsOk o l ∧ Run o (flat l) m m' := by
  induction l generalizing m with
  | nil =>
    constructor
    · intro h; cases h; exact ⟨(by intro x hx; cases hx), .nil _⟩
    · rintro ⟨_, h⟩; cases h; rfl
  | cons x l ih =>
    obtain ⟨sec, xs⟩ := x
    rw [loadMaps, flat_cons, run_append]
    constructor
    · intro h
      split at h
      · cases h
      · rename_i hx
        split at h
        · cases h
        · rename_i hd
          split at h
          · cases h
          · rename_i vars hv
            split at h
            · cases h
            · rename_i k hk
              obtain ⟨h1, h2⟩ := ih.mp h
              refine ⟨?_, k, (loadSymbols_iff hv).mp hk, h2⟩
              intro y hy
              rcases List.mem_cons.mp hy with rfl | hy
              · exact ⟨hx, by simpa using hd, varsOf_ok.mp ⟨vars, hv⟩⟩
              · exact h1 y hy
    · rintro ⟨h1, k, h2, h3⟩
      obtain ⟨g1, g2, g3⟩ := h1 _ List.mem_cons_self
      obtain ⟨vars, hv⟩ := varsOf_ok.mpr g3
      simp only at g1 g2
      rw [if_neg g1, g2]
      simp only [Bool.not_true, Bool.false_eq_true, if_false]
      rw [hv]
      simp only
      rw [(loadSymbols_iff hv).mpr h2]
      exact ih.mpr ⟨fun y hy => h1 y (List.mem_cons_of_mem _ hy), h3⟩

theorem lookup_cons_ne {n k : Name} {sp : MapSpec} {m : List (Name × MapSpec)} (h : n ≠ k) : List.lookup n ((k, sp) :: m) = m.lookup n := by
  have : (n == k) = false := by simp [h]
  rw [List.lookup, this]

theorem lookup_cons_self {n : Name} {sp : MapSpec} {m : List (Name × MapSpec)} : List.lookup n ((n, sp) :: m) = some sp := by
  simp [List.lookup]

theorem run_ok {o : Obj} {l : List (Sec × Sym)} {m : List (Name × MapSpec)} : (∃ m', Run o l m m') ↔
    (∀ x ∈ l, (∃ sp, Parsed o x.1 x.2 sp) ∧ m.lookup x.2.name = none) ∧ (l.map (·.2.name)).Nodup := by
  induction l generalizing m with
  | nil => exact ⟨fun _ => ⟨(by intro x hx; cases hx), List.nodup_nil⟩, fun _ => ⟨m, .nil m⟩⟩
  | cons x l ih =>
    obtain ⟨sec, s⟩ := x
    rw [List.map_cons, List.nodup_cons]
    constructor
    · rintro ⟨m', h⟩
      cases h with
      | cons _ _ _ _ sp _ h1 h2 h3 =>
        obtain ⟨h4, h5⟩ := ih.mp ⟨m', h3⟩
        have hne : ∀ y ∈ l, y.2.name ≠ s.name := by
          intro y hy hc
          have := (h4 y hy).2
          rw [hc, lookup_cons_self] at this
          cases this
        refine ⟨?_, ?_, h5⟩
        · intro y hy
          rcases List.mem_cons.mp hy with rfl | hy
          · exact ⟨⟨sp, h2⟩, h1⟩
          · refine ⟨(h4 y hy).1, ?_⟩
            rw [← lookup_cons_ne (sp := sp) (hne y hy)]
            exact (h4 y hy).2
        · intro hc
          obtain ⟨y, hy, he⟩ := List.mem_map.mp hc
          exact hne y hy he
    · rintro ⟨h1, h2, h3⟩
      obtain ⟨⟨sp, h4⟩, h5⟩ := h1 _ List.mem_cons_self
      obtain ⟨m', hm⟩ := (ih (m := (s.name, sp) :: m)).mpr ⟨by
        intro y hy
        obtain ⟨g1, g2⟩ := h1 y (List.mem_cons_of_mem _ hy)
        refine ⟨g1, ?_⟩
        rw [lookup_cons_ne]
        · exact g2
        · intro hc
          exact h2 (List.mem_map.mpr ⟨y, hy, hc⟩), h3⟩
      exact ⟨m', .cons _ _ _ _ sp _ h5 h4 hm⟩

theorem parsed_unique {o : Obj} {sec : Sec} {s : Sym} {sp sp' : MapSpec} (h : Parsed o sec s sp) (h' : Parsed o sec s sp') : sp = sp' :=
  describes_unique (parsed_sound h).2.1 (parsed_sound h).2.2 (parsed_sound h').2.2

theorem run_lookup {o : Obj} {l : List (Sec × Sym)} {m m' : List (Name × MapSpec)} (h : Run o l m m') (n : Name) (sp : MapSpec) :
    m'.lookup n = some sp ↔ (∃ x ∈ l, x.2.name = n ∧ Parsed o x.1 x.2 sp) ∨ m.lookup n = some sp := by
  induction h with
  | nil m => exact ⟨Or.inr, fun h => h.resolve_left (by rintro ⟨x, hx, _⟩; cases hx)⟩
  | cons sec s r m sp0 m' h1 h2 h3 ih =>
    rw [ih]
    constructor
    · rintro (⟨x, hx, h4⟩ | h4)
      · exact Or.inl ⟨x, List.mem_cons_of_mem _ hx, h4⟩
      · by_cases hn : n = s.name
        · rw [hn, lookup_cons_self] at h4
          cases h4
          exact Or.inl ⟨_, List.mem_cons_self, hn.symm, h2⟩
        · rw [lookup_cons_ne hn] at h4
          exact Or.inr h4
    · rintro (⟨x, hx, h4, h5⟩ | h4)
      · rcases List.mem_cons.mp hx with rfl | hx
        · right
          simp only at h4 h5
          rw [← h4, lookup_cons_self, parsed_unique h2 h5]
        · exact Or.inl ⟨x, hx, h4, h5⟩
      · right
        rw [lookup_cons_ne]
        · exact h4
        · intro hc
          rw [hc, h1] at h4
          cases h4

/-! ## The claims -/

theorem nodup_map_iff {α β : Type} {l : List α} {f : α → β} (h : l.Nodup) : (l.map f).Nodup ↔ ∀ a ∈ l, ∀ b ∈ l, f a = f b → a = b := by
  induction l with
  | nil => exact ⟨fun _ a ha => (by cases ha), fun _ => List.nodup_nil⟩
  | cons x l ih =>
    obtain ⟨h1, h2⟩ := List.nodup_cons.mp h
    rw [List.map_cons, List.nodup_cons, ih h2]
    constructor
    · rintro ⟨h3, h4⟩ a ha b hb hab
      rcases List.mem_cons.mp ha with rfl | ha'
      · rcases List.mem_cons.mp hb with rfl | hb
        · rfl
        · exact absurd (List.mem_map.mpr ⟨b, hb, hab.symm⟩) h3
      · rcases List.mem_cons.mp hb with rfl | hb
        · exact absurd (List.mem_map.mpr ⟨a, ha', hab⟩) h3
        · exact h4 a ha' b hb hab
    · intro h3
      refine ⟨?_, fun a ha b hb => h3 a (List.mem_cons_of_mem _ ha) b (List.mem_cons_of_mem _ hb)⟩
      intro hc
      obtain ⟨y, hy, he⟩ := List.mem_map.mp hc
      have := h3 y (List.mem_cons_of_mem _ hy) x List.mem_cons_self he
      rw [this] at hy
      exact h1 hy

theorem shuffled_mem {l m : List (Sec × List Sym)} (h : Shuffled l m) :
    (∀ x ∈ l, ∃ y ∈ m, y.1 = x.1 ∧ x.2.Perm y.2) ∧ (∀ y ∈ m, ∃ x ∈ l, y.1 = x.1 ∧ x.2.Perm y.2) := by
  induction h with
  | nil => exact ⟨(by intro x hx; cases hx), by intro x hx; cases hx⟩
  | cons sec xs ys l m hp _ ih =>
    constructor
    · intro x hx
      rcases List.mem_cons.mp hx with rfl | hx
      · exact ⟨_, List.mem_cons_self, rfl, hp⟩
      · obtain ⟨y, hy, h1⟩ := ih.1 x hx
        exact ⟨y, List.mem_cons_of_mem _ hy, h1⟩
    · intro x hx
      rcases List.mem_cons.mp hx with rfl | hx
      · exact ⟨_, List.mem_cons_self, rfl, hp⟩
      · obtain ⟨y, hy, h1⟩ := ih.2 x hx
        exact ⟨y, List.mem_cons_of_mem _ hy, h1⟩

theorem secsOk_visit {o : Obj} {l : List (Sec × List Sym)} (h : Visit o l) : SecsOk o l ↔ SecsOk o (mapSections o) := by
  obtain ⟨m, h1, h2⟩ := h
  obtain ⟨f, g⟩ := shuffled_mem h1
  constructor
  · intro hs x hx
    obtain ⟨y, hy, e, p⟩ := g x (h2.mem_iff.mpr hx)
    obtain ⟨k1, k2, k3⟩ := hs y hy
    rw [e]
    refine ⟨?_, k2, k3⟩
    intro hc
    rw [hc] at p
    exact k1 p.eq_nil
  · intro hs x hx
    obtain ⟨y, hy, e, p⟩ := f x hx
    obtain ⟨k1, k2, k3⟩ := hs y (h2.mem_iff.mp hy)
    rw [← e]
    refine ⟨?_, k2, k3⟩
    intro hc
    rw [hc] at p
    exact k1 p.nil_eq.symm

/-- Maps are loaded if and only if every section of maps has some, can be read and has sane BTF, every symbol lies within its section and has all fields, and
names are unique; in whichever order sections and symbols are visited. -/
theorem maps_ok_iff (o : Obj) (l : List (Sec × List Sym)) (hv : Visit o l) : (∃ m, loadMaps o l [] = .ok m) ↔ Good o := by
  have hmem : ∀ {sec s}, (sec, s) ∈ flat l ↔ Defines o sec s := fun {sec s} => by
    rw [(flat_visit hv).mem_iff, mem_flat_mapSections]
  have hsnd : ((flat l).map (·.2)).Nodup := ((flat_visit hv).map _).nodup_iff.mpr (flat_nodup o)
  have hnodup : ((flat l).map (·.2.name)).Nodup ↔ ∀ sec s sec' s', Defines o sec s → Defines o sec' s' → s.name = s'.name → s = s' := by
    have e : (flat l).map (·.2.name) = ((flat l).map (·.2)).map (·.name) := by rw [List.map_map]; rfl
    rw [e, nodup_map_iff hsnd]
    constructor
    · intro h sec s sec' s' h1 h2 h3
      exact h s (List.mem_map.mpr ⟨_, hmem.mpr h1, rfl⟩) s' (List.mem_map.mpr ⟨_, hmem.mpr h2, rfl⟩) h3
    · intro h a ha b hb hab
      obtain ⟨⟨sec, s⟩, h1, rfl⟩ := List.mem_map.mp ha
      obtain ⟨⟨sec', s'⟩, h2, rfl⟩ := List.mem_map.mp hb
      exact h sec s sec' s' (hmem.mp h1) (hmem.mp h2) hab
  have hrun : (∃ m, loadMaps o l [] = .ok m) ↔ SecsOk o (mapSections o) ∧ ((∀ x ∈ flat l, (∃ sp, Parsed o x.1 x.2 sp) ∧ List.lookup x.2.name ([] : List (Name × MapSpec)) = none) ∧ ((flat l).map (·.2.name)).Nodup) := by
    rw [← run_ok, ← secsOk_visit hv]
    constructor
    · rintro ⟨m, h⟩
      obtain ⟨h1, h2⟩ := loadMaps_iff.mp h
      exact ⟨h1, m, h2⟩
    · rintro ⟨h1, m, h2⟩
      exact ⟨m, loadMaps_iff.mpr ⟨h1, h2⟩⟩
  rw [hrun, hnodup]
  constructor
  · rintro ⟨h1, h2, h3⟩
    refine ⟨?_, ?_, h3⟩
    · intro i sec hi hm
      obtain ⟨g1, g2, g3⟩ := h1 (sec, assignSymbols i o.symbols []) (mem_mapSections.mpr ⟨i, hi, hm, rfl⟩)
      refine ⟨g2, g3, ?_⟩
      obtain ⟨s, hs⟩ := List.exists_mem_of_ne_nil _ g1
      simp only at hs
      rcases mem_assignSymbols.mp hs with ⟨e, h4, h5⟩ | ⟨h4, _⟩
      · refine ⟨s, e, by rw [e]; exact hi, hm, h4, ?_⟩
        rw [e]; exact h5
      · cases h4
    · intro sec s hd
      obtain ⟨⟨sp, hp⟩, _⟩ := h2 _ (hmem.mpr hd)
      exact (parsed_sound hp).1
  · rintro ⟨h1, h2, h3⟩
    refine ⟨?_, ?_, h3⟩
    · intro x hx
      obtain ⟨i, hi, hm, he⟩ := mem_mapSections.mp hx
      obtain ⟨g1, g2, s, g3, g4⟩ := h1 i x.1 hi hm
      refine ⟨?_, g1, g2⟩
      intro hc
      have : s ∈ x.2 := by
        rw [he]
        refine mem_assignSymbols.mpr (Or.inl ⟨g3, g4.2.2.1, ?_⟩)
        rw [← g3]
        exact g4.2.2.2
      rw [hc] at this
      cases this
    · rintro ⟨sec, s⟩ hx
      have hd := hmem.mp hx
      obtain ⟨_, g2, _⟩ := h1 s.sec sec hd.1 hd.2.1
      exact ⟨parsed_complete (h2 sec s hd) g2, rfl⟩

/-- The maps loaded are exactly those the object defines, under their names, with the fields, the trailing bytes and the tags it says. -/
theorem maps_exact (o : Obj) (l : List (Sec × List Sym)) (hv : Visit o l) (m : List (Name × MapSpec)) (h : loadMaps o l [] = .ok m) (n : Name) (sp : MapSpec) :
    m.lookup n = some sp ↔ ∃ sec s, Defines o sec s ∧ s.name = n ∧ Describes o sec s sp := by
  obtain ⟨h1, h2⟩ := loadMaps_iff.mp h
  rw [run_lookup h2]
  have hg := (maps_ok_iff o l hv).mp ⟨m, h⟩
  constructor
  · rintro (⟨⟨sec, s⟩, hx, h3, h4⟩ | h3)
    · rw [(flat_visit hv).mem_iff, mem_flat_mapSections] at hx
      exact ⟨sec, s, hx, h3, (parsed_sound h4).2.2⟩
    · cases h3
  · rintro ⟨sec, s, hd, h3, h4⟩
    left
    refine ⟨(sec, s), (flat_visit hv).mem_iff.mpr (mem_flat_mapSections.mpr hd), h3, ?_⟩
    obtain ⟨_, g2, _⟩ := hg.secs s.sec sec hd.1 hd.2.1
    obtain ⟨sp', hp⟩ := parsed_complete (hg.fits sec s hd) g2
    rw [describes_unique g2 h4 (parsed_sound hp).2.2]
    exact hp

/-- The order of the visits doesn't matter. -/
theorem maps_order (o : Obj) (l l' : List (Sec × List Sym)) (hv : Visit o l) (hv' : Visit o l') :
    ((∃ m, loadMaps o l [] = .ok m) ↔ ∃ m, loadMaps o l' [] = .ok m) ∧
    ∀ m m', loadMaps o l [] = .ok m → loadMaps o l' [] = .ok m' → ∀ n, m.lookup n = m'.lookup n := by
  refine ⟨by rw [maps_ok_iff o l hv, maps_ok_iff o l' hv'], ?_⟩
  intro m m' h h' n
  cases hl : m.lookup n with
  | some sp => exact ((maps_exact o l' hv' m' h' n sp).mpr ((maps_exact o l hv m h n sp).mp hl)).symm
  | none =>
    cases hl' : m'.lookup n with
    | none => rfl
    | some sp =>
      rw [(maps_exact o l hv m h n sp).mpr ((maps_exact o l' hv' m' h' n sp).mp hl')] at hl
      cases hl

/-! ## What a section is -/

theorem begins_iff {p n : Name} : p.isPrefixOf n = true ↔ Begins n p := prefix_iff

theorem isDataSection_iff {n : Name} : isDataSection n = true ↔ n = ".bss".toList ∨ Begins n ".data".toList ∨ Begins n ".rodata".toList := by
  unfold isDataSection
  rw [Bool.or_eq_true, Bool.or_eq_true, decide_eq_true_eq, begins_iff, begins_iff, or_assoc]

theorem classify_license {s : Sec} : classify s = .license ↔ Begins s.name "license".toList := by
  unfold classify
  constructor
  · intro h
    split at h
    · rename_i h1; exact begins_iff.mp h1
    · repeat' (split at h)
      all_goals cases h
  · intro h
    rw [if_pos (begins_iff.mpr h)]

theorem classify_version {s : Sec} : classify s = .version ↔ Begins s.name "version".toList := by
  unfold classify
  constructor
  · intro h
    split at h
    · cases h
    · split at h
      · rename_i h1; exact begins_iff.mp h1
      · repeat' (split at h)
        all_goals cases h
  · rintro ⟨r, h⟩
    rw [h]
    rfl

/-- Sections of data are those of these names. -/
theorem data_iff (s : Sec) : classify s = .data ↔ DataSec s := by
  unfold classify DataSec
  constructor
  · intro h
    split at h
    · cases h
    · split at h
      · cases h
      · split at h
        · cases h
        · split at h
          · cases h
          · split at h
            · rename_i h1; exact isDataSection_iff.mp h1
            · repeat' (split at h)
              all_goals cases h
  · rintro (h | ⟨r, h⟩ | ⟨r, h⟩) <;> rw [h] <;> rfl

theorem reserved_iff {n : Name} : Reserved n ↔ ("license".toList.isPrefixOf n = true ∨ "version".toList.isPrefixOf n = true ∨ "maps".toList.isPrefixOf n = true ∨ n = ".maps".toList ∨
    isDataSection n = true) := by
  rw [isDataSection_iff, begins_iff, begins_iff, begins_iff]
  exact Iff.rfl

theorem size_iff {w : BitVec 64} : w ≠ 0#64 ↔ w.toNat ≠ 0 := by
  exact not_congr ⟨fun h => by rw [h]; rfl, fun h => BitVec.eq_of_toNat_eq h⟩

/-- Sections of programs are those with code, unless the name has a meaning. -/
theorem program_iff (s : Sec) : classify s = .program ↔ ProgSec s := by
  unfold classify ProgSec
  rw [reserved_iff, ← size_iff]
  constructor
  · intro h
    split at h
    · cases h
    · split at h
      · cases h
      · split at h
        · cases h
        · split at h
          · cases h
          · split at h
            · cases h
            · split at h
              · cases h
              · split at h
                · split at h
                  · rename_i h1 h2 h3 h4 h5 h6 h7 h8
                    exact ⟨fun hc => by rcases hc with hc | hc | hc | hc | hc <;> contradiction, h7.1, h7.2, h8⟩
                  · repeat' (split at h)
                    all_goals cases h
                · cases h
  · rintro ⟨h1, h2, h3, h4⟩
    rw [if_neg (fun h => h1 (Or.inl h)), if_neg (fun h => h1 (Or.inr (Or.inl h))), if_neg (fun h => h1 (Or.inr (Or.inr (Or.inl h)))),
      if_neg (fun h => h1 (Or.inr (Or.inr (Or.inr (Or.inl h))))), if_neg (fun h => h1 (Or.inr (Or.inr (Or.inr (Or.inr h))))), h2]
    rw [if_neg (by decide), if_pos ⟨rfl, h3⟩, if_pos h4]

theorem classify_structOps {s : Sec} : classify s = .structOps ↔ OldOps s := by
  unfold classify OldOps
  rw [← size_iff]
  constructor
  · intro h
    split at h
    · cases h
    · split at h
      · cases h
      · split at h
        · cases h
        · split at h
          · cases h
          · split at h
            · cases h
            · split at h
              · cases h
              · split at h
                · rename_i h7
                  split at h
                  · cases h
                  · rename_i h8
                    split at h
                    · cases h
                    · split at h
                      · rename_i h10
                        exact ⟨h10, h7.1, h7.2, by simpa using h8⟩
                      · cases h
                · cases h
  · rintro ⟨h1, h2, h3, h4⟩
    rw [h1, h2, h4, if_neg (by decide), if_neg (by decide), if_neg (by decide), if_neg (by decide), if_neg (by decide), if_neg (by decide), if_pos ⟨rfl, h3⟩]
    rfl

/-! ## License and version -/

/-- The last section of a list whose name begins so, or else another. -/
def LastOr (l : List Sec) (p : Name) (d : Option Sec) (r : Option Sec) : Prop :=
  (∃ a s b x, l = a ++ s :: b ∧ s.name = p ++ x ∧ (∀ t ∈ b, ∀ y, t.name ≠ p ++ y) ∧ r = some s) ∨ ((∀ t ∈ l, ∀ y, t.name ≠ p ++ y) ∧ r = d)

theorem lastOr_skip {l : List Sec} {s : Sec} {p : Name} {d r : Option Sec} (h : ∀ y, s.name ≠ p ++ y) : LastOr (s :: l) p d r ↔ LastOr l p d r := by
  unfold LastOr
  constructor
  · rintro (⟨a, t, b, x, h1, h2, h3⟩ | ⟨h1, h2⟩)
    · cases a with
      | nil => obtain ⟨rfl, _⟩ := List.cons.inj h1; exact absurd h2 (h x)
      | cons y a => exact Or.inl ⟨a, t, b, x, (List.cons.inj h1).2, h2, h3⟩
    · exact Or.inr ⟨fun t ht => h1 t (List.mem_cons_of_mem _ ht), h2⟩
  · rintro (⟨a, t, b, x, h1, h2, h3⟩ | ⟨h1, h2⟩)
    · exact Or.inl ⟨s :: a, t, b, x, by rw [h1]; rfl, h2, h3⟩
    · refine Or.inr ⟨?_, h2⟩
      intro t ht
      rcases List.mem_cons.mp ht with rfl | ht
      · exact h
      · exact h1 t ht

theorem lastOr_hit {l : List Sec} {s : Sec} {p : Name} {d r : Option Sec} {x : Name} (h : s.name = p ++ x) : LastOr (s :: l) p d r ↔ LastOr l p (some s) r := by
  unfold LastOr
  constructor
  · rintro (⟨a, t, b, y, h1, h2, h3, h4⟩ | ⟨h1, h2⟩)
    · cases a with
      | nil => obtain ⟨rfl, rfl⟩ := List.cons.inj h1; exact Or.inr ⟨h3, h4⟩
      | cons z a => exact Or.inl ⟨a, t, b, y, (List.cons.inj h1).2, h2, h3, h4⟩
    · exact absurd h (h1 s List.mem_cons_self x)
  · rintro (⟨a, t, b, y, h1, h2, h3⟩ | ⟨h1, h2⟩)
    · exact Or.inl ⟨s :: a, t, b, y, by rw [h1]; rfl, h2, h3⟩
    · exact Or.inl ⟨[], s, l, x, rfl, h, h1, h2⟩

theorem not_begins {s : Sec} {p : Name} (h : ¬ Begins s.name p) : ∀ y, s.name ≠ p ++ y := fun y hc => h ⟨y, hc⟩

theorem scan_iff {l : List Sec} {d e x y : Option Sec} : scan l d e = .ok (x, y) ↔
    (∀ s ∈ l, ¬ OldOps s) ∧ LastOr l "license".toList d x ∧ LastOr l "version".toList e y := by
  induction l generalizing d e with
  | nil =>
    rw [scan]
    unfold LastOr
    constructor
    · intro h; cases h
      exact ⟨(by intro s hs; cases hs), Or.inr ⟨(by intro s hs; cases hs), rfl⟩, Or.inr ⟨(by intro s hs; cases hs), rfl⟩⟩
    · rintro ⟨_, h1, h2⟩
      rcases h1 with ⟨a, _, _, _, h, _⟩ | ⟨_, rfl⟩
      · cases a <;> cases h
      · rcases h2 with ⟨a, _, _, _, h, _⟩ | ⟨_, rfl⟩
        · cases a <;> cases h
        · rfl
  | cons s r ih =>
    rw [scan, List.forall_mem_cons]
    have hl := @classify_license s
    have hv := @classify_version s
    have ho := @classify_structOps s
    cases hc : classify s with
    | license =>
      rw [hc] at hl hv ho
      obtain ⟨z, hz⟩ := hl.mp rfl
      have hv' : ¬ Begins s.name "version".toList := fun h => by cases hv.mpr h
      have ho' : ¬ OldOps s := fun h => by cases ho.mpr h
      simp only
      rw [ih, lastOr_hit hz, lastOr_skip (not_begins hv')]
      simp [ho']
    | version =>
      rw [hc] at hl hv ho
      obtain ⟨z, hz⟩ := hv.mp rfl
      have hl' : ¬ Begins s.name "license".toList := fun h => by cases hl.mpr h
      have ho' : ¬ OldOps s := fun h => by cases ho.mpr h
      simp only
      rw [ih, lastOr_hit hz, lastOr_skip (not_begins hl')]
      simp [ho']
    | structOps =>
      rw [hc] at ho
      have ho' := ho.mp rfl
      simp [ho']
    | maps | btfMaps | data | rel | program | structOpsLink | ignored =>
      rw [hc] at hl hv ho
      have hv' : ¬ Begins s.name "version".toList := fun h => by cases hv.mpr h
      have hl' : ¬ Begins s.name "license".toList := fun h => by cases hl.mpr h
      have ho' : ¬ OldOps s := fun h => by cases ho.mpr h
      simp only
      rw [ih, lastOr_skip (not_begins hl'), lastOr_skip (not_begins hv')]
      simp [ho']

theorem dropWhile_zeros (b : Bytes) : ∃ k, b = List.replicate k 0#8 ++ b.dropWhile (· = 0#8) ∧ (b.dropWhile (· = 0#8)).head? ≠ some 0#8 := by
  induction b with
  | nil => exact ⟨0, rfl, by simp⟩
  | cons x b ih =>
    by_cases hx : x = 0#8
    · obtain ⟨k, h1, h2⟩ := ih
      rw [List.dropWhile_cons_of_pos (by simp [hx])]
      refine ⟨k + 1, ?_, h2⟩
      rw [List.replicate_succ, List.cons_append, ← h1, hx]
    · rw [List.dropWhile_cons_of_neg (by simp [hx])]
      exact ⟨0, rfl, by simp [hx]⟩

theorem trimNul_iff {b t : Bytes} : trimNul b = t ↔ Trimmed b t := by
  obtain ⟨k, h1, h2⟩ := dropWhile_zeros b.reverse
  have hb : b = trimNul b ++ List.replicate k 0#8 := by
    have := congrArg List.reverse h1
    rw [List.reverse_reverse, List.reverse_append, List.reverse_replicate] at this
    exact this
  have ht : (trimNul b).getLast? ≠ some 0#8 := by
    unfold trimNul
    rw [List.getLast?_reverse]
    exact h2
  constructor
  · rintro rfl
    exact ⟨k, hb, ht⟩
  · rintro ⟨j, h3, h4⟩
    have key : ∀ (k j : Nat) (u t : Bytes), u ++ List.replicate k 0#8 = t ++ List.replicate j 0#8 → u.getLast? ≠ some 0#8 → t.getLast? ≠ some 0#8 → u = t := by
      intro k
      induction k with
      | zero =>
        intro j u t h hu ht
        cases j with
        | zero => simpa using h
        | succ j =>
          rw [List.replicate_succ', ← List.append_assoc, List.replicate_zero, List.append_nil] at h
          rw [h] at hu
          simp at hu
      | succ k ih =>
        intro j u t h hu ht
        cases j with
        | zero =>
          rw [List.replicate_succ', ← List.append_assoc, List.replicate_zero, List.append_nil] at h
          rw [← h] at ht
          simp at ht
        | succ j =>
          rw [List.replicate_succ', List.replicate_succ', ← List.append_assoc, ← List.append_assoc] at h
          exact ih j u t (List.append_cancel_right h) hu ht
    exact key k j _ _ (hb.symm.trans h3) ht h4

theorem loadLicense_iff {o : Obj} {x : Option Sec} (h : LastOr o.sections "license".toList none x) {l : Bytes} : loadLicense x = .ok l ↔ License o l := by
  unfold License
  rcases h with ⟨a, s, b, y, h1, h2, h3, rfl⟩ | ⟨h1, rfl⟩
  · rw [loadLicense]
    constructor
    · intro h
      split at h
      · cases h
      · rename_i hn
        cases h
        exact Or.inl ⟨s, ⟨a, b, y, h1, h2, h3⟩, by omega, trimNul_iff.mp rfl⟩
    · rintro (⟨t, ⟨a', b', y', g1, g2, g3⟩, g4, g5⟩ | ⟨g1, _⟩)
      · have : t = s := by
          rw [h1] at g1
          rcases List.append_eq_append_iff.mp g1 with ⟨c, e1, e2⟩ | ⟨c, e1, e2⟩
          · cases c with
            | nil => exact (List.cons.inj e2).1.symm
            | cons z c =>
              obtain ⟨_, e3⟩ := List.cons.inj e2
              exact absurd g2 (h3 t (by rw [e3]; simp) y')
          · cases c with
            | nil => exact (List.cons.inj e2).1
            | cons z c =>
              obtain ⟨_, e3⟩ := List.cons.inj e2
              exact absurd h2 (g3 s (by rw [e3]; simp) y)
        subst this
        rw [if_neg (by omega), trimNul_iff.mpr g5]
      · exact absurd h2 (g1 s (by rw [h1]; simp) y)
  · rw [loadLicense]
    constructor
    · intro h; cases h; exact Or.inr ⟨h1, rfl⟩
    · rintro (⟨t, ⟨a', b', y', g1, g2, g3⟩, _⟩ | ⟨_, rfl⟩)
      · exact absurd g2 (h1 t (by rw [g1]; simp) y')
      · rfl

theorem loadVersion_iff {o : Obj} {x : Option Sec} (h : LastOr o.sections "version".toList none x) {v : BitVec 32} : loadVersion o.big x = .ok v ↔ Version o v := by
  unfold Version
  rcases h with ⟨a, s, b, y, h1, h2, h3, rfl⟩ | ⟨h1, rfl⟩
  · rw [loadVersion]
    constructor
    · intro h
      split at h
      · cases h
      · rename_i v' r' hr
        cases h
        obtain ⟨a0, a1, a2, a3, e1, e2⟩ := readU32_some hr
        exact Or.inl ⟨s, a0, a1, a2, a3, r', ⟨a, b, y, h1, h2, h3⟩, e1, e2⟩
    · rintro (⟨t, a0, a1, a2, a3, r, ⟨a', b', y', g1, g2, g3⟩, g4, g5⟩ | ⟨g1, _⟩)
      · have : t = s := by
          rw [h1] at g1
          rcases List.append_eq_append_iff.mp g1 with ⟨c, e1, e2⟩ | ⟨c, e1, e2⟩
          · cases c with
            | nil => exact (List.cons.inj e2).1.symm
            | cons z c =>
              obtain ⟨_, e3⟩ := List.cons.inj e2
              exact absurd g2 (h3 t (by rw [e3]; simp) y')
          · cases c with
            | nil => exact (List.cons.inj e2).1
            | cons z c =>
              obtain ⟨_, e3⟩ := List.cons.inj e2
              exact absurd h2 (g3 s (by rw [e3]; simp) y)
        subst this
        rw [g4]
        cases hr : readU32 o.big (a0 :: a1 :: a2 :: a3 :: r) with
        | none => cases hr
        | some w =>
          obtain ⟨w, r'⟩ := w
          obtain ⟨e1, _⟩ := readU32_word hr
          simp only
          rw [BitVec.eq_of_toNat_eq (e1.trans g5.symm)]
      · exact absurd h2 (g1 s (by rw [h1]; simp) y)
  · rw [loadVersion]
    constructor
    · intro h; cases h; exact Or.inr ⟨h1, rfl⟩
    · rintro (⟨t, a0, a1, a2, a3, r, ⟨a', b', y', g1, g2, g3⟩, _⟩ | ⟨_, e⟩)
      · exact absurd g2 (h1 t (by rw [g1]; simp) y')
      · rw [BitVec.eq_of_toNat_eq (e.trans (by rfl : (0 : Nat) = (0#32).toNat))]

theorem lastOr_total (l : List Sec) (p : Name) (d : Option Sec) : ∃ r, LastOr l p d r := by
  induction l generalizing d with
  | nil => exact ⟨d, Or.inr ⟨(by intro t ht; cases ht), rfl⟩⟩
  | cons s l ih =>
    by_cases h : Begins s.name p
    · obtain ⟨x, hx⟩ := h
      obtain ⟨r, hr⟩ := ih (some s)
      exact ⟨r, (lastOr_hit hx).mpr hr⟩
    · obtain ⟨r, hr⟩ := ih d
      exact ⟨r, (lastOr_skip (not_begins h)).mpr hr⟩

/-- License and version are those of the last sections of these names; an object is refused if one of them cannot be read, or if it has struct_ops of the old
kind. -/
theorem head_exact (o : Obj) (l : Bytes) (v : BitVec 32) : loadHead o = .ok (l, v) ↔ (∀ s ∈ o.sections, ¬ OldOps s) ∧ License o l ∧ Version o v := by
  unfold loadHead
  constructor
  · intro h
    cases hs : scan o.sections none none with
    | error e => rw [hs] at h; cases h
    | ok xy =>
      obtain ⟨x, y⟩ := xy
      obtain ⟨h1, h2, h3⟩ := scan_iff.mp hs
      rw [hs] at h
      cases hl : loadLicense x with
      | error e => simp only [bind, Except.bind, hl] at h; cases h
      | ok l' =>
        cases hv : loadVersion o.big y with
        | error e => simp only [bind, Except.bind, hl, hv] at h; cases h
        | ok v' =>
          simp only [bind, Except.bind, hl, hv] at h
          cases h
          exact ⟨h1, (loadLicense_iff h2).mp hl, (loadVersion_iff h3).mp hv⟩
  · rintro ⟨h1, h2, h3⟩
    obtain ⟨x, hx⟩ := lastOr_total o.sections "license".toList none
    obtain ⟨y, hy⟩ := lastOr_total o.sections "version".toList none
    simp only [scan_iff.mpr ⟨h1, hx, hy⟩, (loadLicense_iff hx).mpr h2, (loadVersion_iff hy).mpr h3, bind, Except.bind]
    rfl

/-! ## An object -/

theorem shuffled_refl (l : List (Sec × List Sym)) : Shuffled l l := by
  induction l with
  | nil => exact .nil
  | cons x l ih => exact .cons x.1 x.2 x.2 l l (List.Perm.refl _) ih

/-- A license, a version, programs and two sections of maps, one of which has a variable with a tag; a symbol replaced by a later one at the same place, and a
map with two bytes more than the kernel knows. -/
def example1 : Obj where
  big := false
  sections :=
    [ ⟨"license".toList, .progbits, false, 4#64, true, [0x47#8, 0x50#8, 0x4c#8, 0#8]⟩,
      ⟨"maps".toList, .progbits, false, 42#64, true,
        [1#8, 0#8, 0#8, 0#8, 4#8, 0#8, 0#8, 0#8, 8#8, 0#8, 0#8, 0#8, 0#8, 1#8, 0#8, 0#8, 0#8, 0#8, 0#8, 0#8,
         2#8, 0#8, 0#8, 0#8, 4#8, 0#8, 0#8, 0#8, 8#8, 0#8, 0#8, 0#8, 1#8, 0#8, 0#8, 0#8, 0#8, 0#8, 0#8, 0#8, 7#8, 9#8]⟩,
      ⟨"version".toList, .progbits, false, 4#64, true, [1#8, 2#8, 3#8, 0#8]⟩,
      ⟨"xdp".toList, .progbits, true, 16#64, true, List.replicate 16 0#8⟩,
      ⟨"maps.b".toList, .progbits, false, 20#64, true,
        [3#8, 0#8, 0#8, 0#8, 4#8, 0#8, 0#8, 0#8, 8#8, 0#8, 0#8, 0#8, 1#8, 0#8, 0#8, 0#8, 0#8, 0#8, 0#8, 0#8]⟩ ]
  symbols :=
    [ ⟨"old".toList, .object, 1, 0#64, 20#64⟩, ⟨"a-1".toList, .object, 1, 0#64, 20#64⟩, ⟨"b".toList, .notype, 1, 20#64, 22#64⟩,
      ⟨[], .other, 1, 20#64, 0#64⟩, ⟨"c".toList, .object, 4, 0#64, 20#64⟩ ]
  btf n := if n = "maps.b".toList then some [some ("c".toList, ["t".toList]), some ("d".toList, [])] else none

/-- It is visited in either order. -/
example : Visit example1 (mapSections example1) ∧ Visit example1 (mapSections example1).reverse :=
  ⟨⟨_, shuffled_refl _, List.Perm.refl _⟩, ⟨_, shuffled_refl _, List.reverse_perm _⟩⟩

/-- It can be loaded, and has three maps. -/
theorem example1_maps : loadMaps example1 (mapSections example1) [] =
    .ok [("c".toList, ⟨"c".toList, 3#32, 4#32, 8#32, 1#32, 0#32, none, ["t".toList]⟩),
      ("a-1".toList, ⟨"a1".toList, 1#32, 4#32, 8#32, 256#32, 0#32, none, []⟩),
      ("b".toList, ⟨"b".toList, 2#32, 4#32, 8#32, 1#32, 0#32, some [7#8, 9#8], []⟩)] := by
  decide

example : Good example1 := (maps_ok_iff example1 _ ⟨_, shuffled_refl _, List.Perm.refl _⟩).mp ⟨_, example1_maps⟩

example : loadHead example1 = .ok ([0x47#8, 0x50#8, 0x4c#8], 0x30201#32) := by decide

example : ∃ s ∈ example1.sections, ProgSec s := ⟨_, List.mem_cons_of_mem _ (List.mem_cons_of_mem _ (List.mem_cons_of_mem _ List.mem_cons_self)), (program_iff _).mp (by decide)⟩

end Ebpf.ElfMaps
