import Verif.Props.BtfStable
import Verif.Spec.BtfIndex
/-! # C28: lookup by name (continued) -/
namespace Ebpf.Btf
open Ebpf.BtfSpec

theorem reach_ninv {d : Dec} {s : DState} (h : DReach d s) : NInv d s := by
  induction h with
  | init => exact ninv_init d
  | step fuel id _ ih => exact (inflate_sound d fuel _ id ih).2.1

/-- A type keeps its address: once `TypeByID` returned an object for an ID, it always will, for any blob and whatever is called in between. -/
theorem typeByID_stable (d : Dec) (s : DState) (h : DReach d s) (fuel : Nat) (id : ID) (a : Nat) (ha : (d.inflate fuel s id).2 = some a)
    (q : List (Nat × ID)) (fuel' : Nat) :
    (d.inflate (fuel' + 1) (q.foldl (fun s x => (d.inflate x.1 s x.2).1) (d.inflate fuel s id).1) id).2 = some a := by
  obtain ⟨h1, h2, h3⟩ := inflate_sound d fuel s id (reach_ninv h)
  have key : ∀ (q : List (Nat × ID)) s, NInv d s → Later s (q.foldl (fun s x => (d.inflate x.1 s x.2).1) s) := by
    intro q
    induction q with
    | nil => intro s _; exact .refl s
    | cons x q ih =>
      intro s hs
      obtain ⟨h1, h2, _⟩ := inflate_sound d x.1 s x.2 hs
      exact h1.trans (ih _ h2)
  have h4 := h3 a ha
  by_cases h0 : id = 0
  · rw [if_pos h0] at h4
    unfold Dec.inflate
    rw [if_pos h0, h4]
  · rw [if_neg h0] at h4
    have := (key q _ h2).types _ _ h4
    unfold Dec.inflate
    rw [if_neg h0, this]

/-- Different IDs have different objects. -/
theorem typeByID_injective (d : Dec) (s : DState) (h : DReach d s) (id id' : ID) (a : Nat) (h1 : List.lookup id s.types = some a) (h2 : List.lookup id' s.types = some a) :
    id = id' := (reach_ninv h).inj id id' a h1 h2

theorem record_name (d : Dec) (id : ID) : typeName d id = d.headerName id ∨ typeName d id = [] := by
  unfold typeName Dec.headerName Dec.record
  cases d.rawAt id with
  | none => simp
  | some x =>
    obtain ⟨h, b⟩ := x
    simp only
    cases d.strings.lookup h.nameOff with
    | none => simp
    | some name =>
      simp only [Option.getD_some]
      cases hp : parseKind d.bo d.strings.lookup d.legacy h name b with
      | none => simp
      | some r =>
        simp only
        unfold parseKind at hp
        split at hp
        all_goals grind [Node.name]

theorem collect_spec (d : Dec) (fuel : Nat) (name : Bytes) : ∀ ids s, NInv d s → (∀ id ∈ ids, id ≠ 0) →
    Later s (d.collect fuel name s ids).1 ∧ NInv d (d.collect fuel name s ids).1 ∧
    (∀ as, (d.collect fuel name s ids).2 = some as →
      Loaded (d.collect fuel name s ids).1 (ids.filter fun id => newEssentialName (typeName d id) = name) as) ∧
    ((d.collect fuel name s ids).2 = none → ∃ s' id, Later s s' ∧ NInv d s' ∧ id ∈ ids ∧ (d.inflate fuel s' id).2 = none) := by
  intro ids
  induction ids with
  | nil => intro s h _; exact ⟨.refl s, h, by intro as h; cases h; rfl, by intro h; cases h⟩
  | cons id ids ih =>
    intro s h hne
    obtain ⟨h1, h2, h3⟩ := inflate_sound d fuel s id h
    unfold Dec.collect
    rcases hi : d.inflate fuel s id with ⟨s1, r⟩
    rw [hi] at h1 h2 h3
    cases r with
    | none => exact ⟨h1, h2, (fun as h => by cases h), fun _ => ⟨s, id, .refl s, h, by simp, by rw [hi]⟩⟩
    | some a =>
      have h3 := h3 a rfl
      rw [if_neg (hne id (by simp))] at h3
      obtain ⟨e, i, ok, fail⟩ := ih s1 h2 (fun x hx => hne x (by simp [hx]))
      simp only
      rcases hc : d.collect fuel name s1 ids with ⟨s2, r⟩
      rw [hc] at e i ok fail
      cases r with
      | none =>
        refine ⟨h1.trans e, i, (fun as h => by cases h), fun _ => ?_⟩
        obtain ⟨s', id', he, hi', hm, hf⟩ := fail rfl
        exact ⟨s', id', h1.trans he, hi', by simp [hm], hf⟩
      | some as =>
        refine ⟨h1.trans e, i, ?_, by intro h; cases h⟩
        intro as' has
        cases has
        obtain ⟨_, _, r, n, hr, hn, hnm⟩ := h2.ok id a h3
        have hname : s1.nameAt a = typeName d id := by
          unfold DState.nameAt typeName
          simp only at hn
          rw [hn, hr]; exact hnm
        rw [hname]
        have ok := ok as rfl
        unfold Loaded at ok ⊢
        rw [List.filter_cons]
        by_cases hc : newEssentialName (typeName d id) = name
        · simp only [hc, decide_true, if_true, List.map_cons, ok]
          rw [e.types id a h3]
        · simp only [hc, decide_false, if_false, ok, Bool.false_eq_true]

/-- `cutFlavour` agrees with the essential name except for names which consist of a flavour only. -/
theorem cut_essential (tn name : Bytes) (h : newEssentialName tn = name) (hne : name ≠ []) (hn : lastIndex3 name ≠ some 0) : tn ≠ [] ∧ cutFlavour tn = name := by
  unfold newEssentialName at h
  unfold cutFlavour
  split at h
  · exact absurd h.symm hne
  · rename_i h0
    refine ⟨h0, ?_⟩
    cases hl : lastIndex3 tn with
    | none => rw [hl] at h; exact h
    | some i =>
      rw [hl] at h
      simp only at h ⊢
      by_cases hi : i > 0
      · rw [if_pos hi] at h; exact h
      · rw [if_neg hi] at h
        subst h
        have : i = 0 := by omega
        subst this
        exact absurd hl hn

theorem hashIDs_filter (hash : Bytes → BitVec 32) (h : BitVec 32) (p : ID → Bool) (hn : ID → Bytes)
    (hp : ∀ id, p id = true → hn id ≠ [] ∧ hash (cutFlavour (hn id)) = h) : ∀ m k,
    (hashIDs hash h (BitVec.ofNat 32 (k + 1)) ((List.range' k m).map fun i => hn (BitVec.ofNat 32 (i + 1)))).filter p =
      ((List.range' k m).map fun i => BitVec.ofNat 32 (i + 1)).filter p
  | 0, k => rfl
  | m + 1, k => by
    have ih := hashIDs_filter hash h p hn hp m (k + 1)
    have he : BitVec.ofNat 32 (k + 1) + 1 = BitVec.ofNat 32 (k + 1 + 1) := by
      rw [BitVec.ofNat_add (k + 1) 1]; rfl
    rw [List.range'_succ, List.map_cons, List.map_cons]
    unfold hashIDs
    rw [he]
    by_cases hc : hn (BitVec.ofNat 32 (k + 1)) ≠ [] ∧ hash (cutFlavour (hn (BitVec.ofNat 32 (k + 1)))) = h
    · rw [if_pos hc, List.filter_cons, List.filter_cons, ih]
    · rw [if_neg hc, ih, List.filter_cons, if_neg ?_]
      intro hp'
      exact hc (hp _ hp')

theorem hashIDs_mem (hash : Bytes → BitVec 32) (h : BitVec 32) (hn : ID → Bytes) : ∀ m k,
    ∀ id ∈ hashIDs hash h (BitVec.ofNat 32 (k + 1)) ((List.range' k m).map fun i => hn (BitVec.ofNat 32 (i + 1))),
      (∃ i, k ≤ i ∧ i < k + m ∧ id = BitVec.ofNat 32 (i + 1)) ∧ hash (cutFlavour (hn id)) = h
  | 0, k => by intro id hid; simp [hashIDs] at hid
  | m + 1, k => by
    intro id hid
    have ih := hashIDs_mem hash h hn m (k + 1)
    have he : BitVec.ofNat 32 (k + 1) + 1 = BitVec.ofNat 32 (k + 1 + 1) := by
      rw [BitVec.ofNat_add (k + 1) 1]; rfl
    rw [List.range'_succ, List.map_cons] at hid
    unfold hashIDs at hid
    rw [he] at hid
    split at hid
    · rename_i hc
      rw [List.mem_cons] at hid
      rcases hid with rfl | hid
      · exact ⟨⟨k, by omega, by omega, rfl⟩, hc.2⟩
      · obtain ⟨⟨i, h1, h2, h3⟩, h4⟩ := ih id hid
        exact ⟨⟨i, by omega, by omega, h3⟩, h4⟩
    · obtain ⟨⟨i, h1, h2, h3⟩, h4⟩ := ih id hid
      exact ⟨⟨i, by omega, by omega, h3⟩, h4⟩

/-- The candidates for a name: `Find` on the index of a decoder. -/
theorem find_index (d : Dec) (hash : Bytes → BitVec 32) (name : Bytes) (hlen : d.offsets.length < 2 ^ 32) :
    findIDs (d.index hash) (hash name) = hashIDs hash (hash name) (BitVec.ofNat 32 (0 + 1)) ((List.range' 0 d.offsets.length).map fun i => d.headerName (BitVec.ofNat 32 (i + 1))) := by
  unfold Dec.index
  rw [find_exact _ _ _ (by simpa using hlen), List.range_eq_range']
  rfl

/-- C28, lookup by essential name. On any blob, in any state and for any hash function, `TypesByName` returns exactly the types which have the essential name, in the order of
their IDs; or `ErrNotFound` if there are none; or an error if one of the types whose name has the same hash cannot be inflated. Names which start with `___` and have no further
`___` are excluded, see `flavour_only_not_found`. -/
theorem typesByName_exact (d : Dec) (hash : Bytes → BitVec 32) (fuel : Nat) (s : DState) (name : Bytes) (hs : DReach d s) (hlen : d.offsets.length < 2 ^ 32)
    (hne : name ≠ []) (hn : lastIndex3 name ≠ some 0) :
    match d.typesByName hash fuel s name with
    | (s', .ok as) => flavours d name ≠ [] ∧ Loaded s' (flavours d name) as ∧ Later s s' ∧ NInv d s'
    | (_, .error .notFound) => flavours d name = []
    | (_, .error .inflate) => ∃ s' id, NInv d s' ∧ id ∈ allIDs d ∧ hash (cutFlavour (d.headerName id)) = hash name ∧ (d.inflate fuel s' id).2 = none
    | (_, .error _) => False := by
  have hp : ∀ id, decide (newEssentialName (typeName d id) = name) = true → d.headerName id ≠ [] ∧ hash (cutFlavour (d.headerName id)) = hash name := by
    intro id h
    simp only [decide_eq_true_eq] at h
    obtain ⟨h1, h2⟩ := cut_essential _ _ h hne hn
    rcases record_name d id with h' | h'
    · rw [h'] at h1 h2
      exact ⟨h1, by rw [h2]⟩
    · exact absurd h' h1
  have hfind := find_index d hash name hlen
  have hfil := hashIDs_filter hash (hash name) (fun id => decide (newEssentialName (typeName d id) = name)) d.headerName hp d.offsets.length 0
  have hmem := hashIDs_mem hash (hash name) d.headerName d.offsets.length 0
  rw [← hfind] at hfil hmem
  have hfl : (findIDs (d.index hash) (hash name)).filter (fun id => decide (newEssentialName (typeName d id) = name)) = flavours d name := by
    rw [hfil]; unfold flavours allIDs; rw [List.range_eq_range']
  obtain ⟨e, i, ok, fail⟩ := collect_spec d fuel name (findIDs (d.index hash) (hash name)) s (reach_ninv hs) (by
    intro id hid
    obtain ⟨⟨j, _, h2, h3⟩, _⟩ := hmem id hid
    intro h0
    rw [h0] at h3
    have := congrArg BitVec.toNat h3
    rw [BitVec.toNat_ofNat, Nat.mod_eq_of_lt (by omega)] at this
    simp at this)
  unfold Dec.typesByName
  rcases hc : d.collect fuel name s (findIDs (d.index hash) (hash name)) with ⟨s', r⟩
  rw [hc] at e i ok fail
  cases r with
  | none =>
    obtain ⟨s0, id, _, h2, h3, h4⟩ := fail rfl
    obtain ⟨⟨j, _, h5, h6⟩, h7⟩ := hmem id h3
    refine ⟨s0, id, h2, ?_, h7, h4⟩
    unfold allIDs
    rw [List.mem_map]
    exact ⟨j, by simpa using h5, h6.symm⟩
  | some as =>
    have := ok as rfl
    rw [hfl] at this
    cases as with
    | nil =>
      simp only
      unfold Loaded at this
      have := congrArg List.length this
      simp only [List.length_map, List.length_nil] at this
      exact List.eq_nil_of_length_eq_zero this.symm
    | cons a as =>
      refine ⟨?_, this, e, i⟩
      intro h
      rw [h] at this
      unfold Loaded at this
      simp at this

end Ebpf.Btf

namespace Ebpf.Btf
open Ebpf.BtfSpec

theorem filter_eraseIdx (p : Nat → Bool) : ∀ (l : List Nat) (i : Nat) (a : Nat), l[i]? = some a → p a = false → (l.eraseIdx i).filter p = l.filter p
  | [], i, a, h, _ => by simp at h
  | x :: l, 0, a, h, hp => by
    simp only [List.getElem?_cons_zero, Option.some.injEq] at h
    subst h
    simp [hp]
  | x :: l, i + 1, a, h, hp => by
    simp only [List.getElem?_cons_succ] at h
    simp only [List.eraseIdx_cons_succ, List.filter_cons, filter_eraseIdx p l i a h hp]

/-- The loop of `AnyTypesByName` removes only types with another name. -/
theorem deleteLoop_spec (nm : Nat → Bytes) (name : Bytes) : ∀ k i types,
    (deleteLoop nm name k i types).Sublist types ∧
    (deleteLoop nm name k i types).filter (fun a => nm a = name) = types.filter (fun a => nm a = name) := by
  intro k
  induction k with
  | zero => intro i types; exact ⟨List.Sublist.refl _, rfl⟩
  | succ k ih =>
    intro i types
    unfold deleteLoop
    split
    · exact ⟨List.Sublist.refl _, rfl⟩
    · rename_i a ha
      split
      · rename_i hne
        obtain ⟨h1, h2⟩ := ih (i + 1) (types.eraseIdx i)
        refine ⟨h1.trans (List.eraseIdx_sublist _ _), ?_⟩
        rw [h2, filter_eraseIdx _ _ _ a ha (by simpa using hne)]
      · exact ih (i + 1) types

theorem deleteLoop_all (nm : Nat → Bytes) (name : Bytes) : ∀ k i types, (∀ a ∈ types, nm a = name) → deleteLoop nm name k i types = types := by
  intro k
  induction k with
  | zero => intro i types _; rfl
  | succ k ih =>
    intro i types h
    unfold deleteLoop
    split
    · rfl
    · rename_i a ha
      rw [if_neg (by simp [h a (List.mem_of_getElem? ha)])]
      exact ih _ _ h

theorem essential_ne_nil (name : Bytes) (h : name ≠ []) : newEssentialName name ≠ [] := by
  unfold newEssentialName
  rw [if_neg h]
  split
  · split
    · rename_i i hi
      intro hh
      rw [List.take_eq_nil_iff] at hh
      rcases hh with hh | hh
      · omega
      · exact h hh
    · exact h
  · exact h

/-- Names of loaded types. -/
theorem loaded_names (d : Dec) (s : DState) (hs : NInv d s) : ∀ ids as, Loaded s ids as → as.map s.nameAt = ids.map (typeName d) := by
  intro ids
  induction ids with
  | nil => intro as h; cases as with
    | nil => rfl
    | cons a as => simp [Loaded] at h
  | cons id ids ih =>
    intro as h
    cases as with
    | nil => simp [Loaded] at h
    | cons a as =>
      unfold Loaded at h
      simp only [List.map_cons, List.cons.injEq] at h
      obtain ⟨_, _, r, n, hr, hn, hnm⟩ := hs.ok id a h.1.symm
      simp only [List.map_cons]
      rw [ih as h.2]
      congr 1
      unfold DState.nameAt typeName
      rw [hn, hr]; exact hnm

theorem loaded_filter (s : DState) (p : ID → Bool) (q : Nat → Bool) : ∀ ids as, Loaded s ids as → ids.map p = as.map q → Loaded s (ids.filter p) (as.filter q) := by
  intro ids
  induction ids with
  | nil => intro as h; cases as with
    | nil => intro _; rfl
    | cons a as => simp [Loaded] at h
  | cons id ids ih =>
    intro as h hpq
    cases as with
    | nil => simp [Loaded] at h
    | cons a as =>
      unfold Loaded at h
      simp only [List.map_cons, List.cons.injEq] at h hpq
      have := ih as h.2 hpq.2
      rw [List.filter_cons, List.filter_cons, hpq.1]
      unfold Loaded at this ⊢
      split
      · simp only [List.map_cons, this, h.1]
      · exact this

/-- C28 (partial). On any blob, in any state and for any hash function, `AnyTypesByName` returns some of the types which have the same essential name, in the order of their IDs; those with exactly the requested name are all among them. If no type is
another flavour of the name, these are the only ones. `ErrNotFound` is returned only if there is no type with the essential name. An error other than `ErrNotFound` means that some type cannot be loaded.

Missing: with other flavours the result may contain types which do not have the name (`wrong_flavour_returned`), and may be empty (`anyTypeByName_panics`). -/
theorem anyTypesByName_partial (d : Dec) (hash : Bytes → BitVec 32) (fuel : Nat) (s : DState) (name : Bytes) (hs : DReach d s) (hlen : d.offsets.length < 2 ^ 32)
    (hne : name ≠ []) (hn : lastIndex3 (newEssentialName name) ≠ some 0) :
    match d.anyTypesByName hash fuel s name with
    | (s', .ok as) => ∃ ids, Loaded s' ids as ∧ ids.Sublist (flavours d (newEssentialName name)) ∧ ids.filter (fun id => typeName d id = name) = named d name ∧
        (NoOtherFlavour d name → ids = named d name ∧ as ≠ [])
    | (_, .error .notFound) => named d name = [] ∧ flavours d (newEssentialName name) = []
    | (_, .error .inflate) => ∃ s' id, NInv d s' ∧ id ∈ allIDs d ∧ hash (cutFlavour (d.headerName id)) = hash (newEssentialName name) ∧ (d.inflate fuel s' id).2 = none
    | (_, .error _) => False := by
  have h := typesByName_exact d hash fuel s (newEssentialName name) hs hlen (essential_ne_nil name hne) hn
  have hnamed : (flavours d (newEssentialName name)).filter (fun id => typeName d id = name) = named d name := by
    unfold flavours named
    rw [List.filter_filter]
    apply List.filter_congr
    intro id _
    by_cases hc : typeName d id = name <;> simp [hc]
  unfold Dec.anyTypesByName
  rcases hr : d.typesByName hash fuel s (newEssentialName name) with ⟨s', r⟩
  rw [hr] at h
  cases r with
  | error e =>
    cases e with
    | notFound =>
      refine ⟨?_, h⟩
      rw [← hnamed]
      simp only at h
      rw [h]; rfl
    | inflate => exact h
    | multiple => exact h
    | panic => exact h
  | ok types =>
    obtain ⟨hnn, hload, _, hinv⟩ := h
    simp only
    have hnames := loaded_names d s' hinv _ _ hload
    obtain ⟨hsub, hfil⟩ := deleteLoop_spec s'.nameAt name types.length 0 types
    -- the IDs of the sublist
    have hsubl : ∀ (ids : List ID) (as bs : List Nat), Loaded s' ids as → bs.Sublist as → ∃ ids', ids'.Sublist ids ∧ Loaded s' ids' bs := by
      intro ids as bs hl hs
      induction hs generalizing ids with
      | slnil => exact ⟨[], List.nil_sublist _, rfl⟩
      | cons a _ ih =>
        cases ids with
        | nil => simp [Loaded] at hl
        | cons id ids =>
          unfold Loaded at hl
          simp only [List.map_cons, List.cons.injEq] at hl
          obtain ⟨ids', h1, h2⟩ := ih ids hl.2
          exact ⟨ids', h1.cons id, h2⟩
      | cons_cons a _ ih =>
        cases ids with
        | nil => simp [Loaded] at hl
        | cons id ids =>
          unfold Loaded at hl
          simp only [List.map_cons, List.cons.injEq] at hl
          obtain ⟨ids', h1, h2⟩ := ih ids hl.2
          refine ⟨id :: ids', h1.cons_cons id, ?_⟩
          unfold Loaded at h2 ⊢
          simp only [List.map_cons, h2, hl.1]
    have hinjL : ∀ (a b : List ID) (as : List Nat), Loaded s' a as → Loaded s' b as → a = b := by
      intro a b as
      induction as generalizing a b with
      | nil => intro h1 h2; cases a <;> cases b <;> simp_all [Loaded]
      | cons x as ih =>
        intro h1 h2
        cases a with
        | nil => simp [Loaded] at h1
        | cons i a =>
          cases b with
          | nil => simp [Loaded] at h2
          | cons j b =>
            unfold Loaded at h1 h2
            simp only [List.map_cons, List.cons.injEq] at h1 h2
            rw [ih a b h1.2 h2.2, hinv.inj i j x h1.1.symm h2.1.symm]
    obtain ⟨ids, hs1, hl1⟩ := hsubl _ _ _ hload hsub
    have hf : ∀ ids as, Loaded s' ids as → Loaded s' (ids.filter (fun id => typeName d id = name)) (as.filter (fun a => s'.nameAt a = name)) := by
      intro ids as hl
      refine loaded_filter s' _ _ ids as hl ?_
      have := loaded_names d s' hinv _ _ hl
      have := congrArg (List.map fun x => decide (x = name)) this
      simp only [List.map_map] at this
      exact this.symm
    refine ⟨ids, hl1, hs1, ?_, ?_⟩
    · have h1 := hf _ _ hl1
      have h2 := hf _ _ hload
      rw [hfil] at h1
      rw [hinjL _ _ _ h1 h2, hnamed]
    · intro hno
      have hall : ∀ id ∈ flavours d (newEssentialName name), typeName d id = name := by
        intro id hid
        unfold flavours at hid
        rw [List.mem_filter] at hid
        exact hno id hid.1 (by simpa using hid.2)
      have hda : deleteLoop s'.nameAt name types.length 0 types = types := by
        apply deleteLoop_all
        intro a ha
        have : s'.nameAt a ∈ types.map s'.nameAt := List.mem_map_of_mem ha
        rw [hnames, List.mem_map] at this
        obtain ⟨id, hid, he⟩ := this
        rw [← he]; exact hall id hid
      rw [hda] at hl1 ⊢
      have hids := hinjL _ _ _ hl1 hload
      refine ⟨?_, ?_⟩
      · rw [hids, ← hnamed]
        symm
        rw [List.filter_eq_self]
        intro id hid
        simpa using hall id hid
      · intro h0
        rw [h0] at hload
        unfold Loaded at hload
        have := congrArg List.length hload
        simp only [List.length_map, List.length_nil] at this
        exact hnn (List.eq_nil_of_length_eq_zero this.symm)

/-- C28 (partial): without other flavours of the name, `AnyTypeByName` does not panic and returns the only type of that name. -/
theorem anyTypeByName_partial (d : Dec) (hash : Bytes → BitVec 32) (fuel : Nat) (s : DState) (name : Bytes) (hs : DReach d s) (hlen : d.offsets.length < 2 ^ 32)
    (hne : name ≠ []) (hn : lastIndex3 (newEssentialName name) ≠ some 0) (hno : NoOtherFlavour d name) :
    match d.anyTypeByName hash fuel s name with
    | (s', .ok a) => ∃ id, named d name = [id] ∧ List.lookup id s'.types = some a
    | (_, .error .notFound) => named d name = []
    | (_, .error .multiple) => (named d name).length > 1
    | (_, .error .inflate) => True
    | (_, .error .panic) => False := by
  have h := anyTypesByName_partial d hash fuel s name hs hlen hne hn
  unfold Dec.anyTypeByName
  rcases hr : d.anyTypesByName hash fuel s name with ⟨s', r⟩
  rw [hr] at h
  cases r with
  | error e =>
    cases e with
    | notFound => exact h.1
    | inflate => trivial
    | multiple => exact absurd h (by simp)
    | panic => exact h
  | ok types =>
    obtain ⟨ids, hl, _, _, hx⟩ := h
    obtain ⟨hids, hne'⟩ := hx hno
    subst hids
    have hlen' := congrArg List.length hl
    simp only [List.length_map] at hlen'
    simp only
    by_cases h1 : types.length > 1
    · rw [if_pos h1]
      simp only; omega
    · rw [if_neg h1]
      cases types with
      | nil => exact absurd rfl hne'
      | cons a as =>
        cases as with
        | cons _ _ => simp at h1
        | nil =>
          simp only [List.getElem?_cons_zero]
          cases hnm : named d name with
          | nil => rw [hnm] at hlen'; simp at hlen'
          | cons id ids =>
            rw [hnm] at hl hlen'
            cases ids with
            | cons _ _ => simp at hlen'
            | nil =>
              unfold Loaded at hl
              simp only [List.map_cons, List.map_nil, List.cons.injEq, and_true] at hl
              exact ⟨id, rfl, hl.symm⟩

theorem pickCandidate_spec (w : Nat → Bool) : ∀ (ts : List Nat) (c : Option Nat),
    match pickCandidate w c ts with
    | .error e => e = .multiple ∧ (c.toList ++ ts.filter w).length > 1
    | .ok none => c.toList ++ ts.filter w = []
    | .ok (some a) => c.toList ++ ts.filter w = [a]
  | [], c => by cases c <;> simp [pickCandidate]
  | t :: ts, c => by
    unfold pickCandidate
    cases hw : w t with
    | false =>
      simp only [Bool.not_false, if_true, List.filter_cons, hw, Bool.false_eq_true, if_false]
      exact pickCandidate_spec w ts c
    | true =>
      cases c with
      | some x => simp [hw]
      | none =>
        have := pickCandidate_spec w ts (some t)
        simpa [List.filter_cons, hw] using this

/-- C28 (partial): without other flavours of the name, `TypeByName` returns the type of the given name and Go type if there is exactly one. It never panics. -/
theorem typeByName_partial (d : Dec) (hash : Bytes → BitVec 32) (fuel : Nat) (s : DState) (name : Bytes) (wanted : Node Nat → Bool) (hs : DReach d s)
    (hlen : d.offsets.length < 2 ^ 32) (hne : name ≠ []) (hn : lastIndex3 (newEssentialName name) ≠ some 0) (hno : NoOtherFlavour d name) :
    match d.typeByName hash fuel s name wanted with
    | (s', .ok a) => ∃ as, Loaded s' (named d name) as ∧ as.filter (fun a => (s'.heap[a]?.map wanted).getD false) = [a]
    | (s', .error .notFound) => named d name = [] ∨ ∃ as, Loaded s' (named d name) as ∧ ∀ a ∈ as, (s'.heap[a]?.map wanted).getD false = false
    | (s', .error .multiple) => ∃ as, Loaded s' (named d name) as ∧ (as.filter (fun a => (s'.heap[a]?.map wanted).getD false)).length > 1
    | (_, .error .inflate) => True
    | (_, .error .panic) => False := by
  have h := anyTypesByName_partial d hash fuel s name hs hlen hne hn
  unfold Dec.typeByName
  rcases hr : d.anyTypesByName hash fuel s name with ⟨s', r⟩
  rw [hr] at h
  cases r with
  | error e =>
    cases e with
    | notFound => exact .inl h.1
    | inflate => trivial
    | multiple => exact absurd h (by simp)
    | panic => exact h
  | ok types =>
    obtain ⟨ids, hl, _, _, hx⟩ := h
    obtain ⟨hids, hne'⟩ := hx hno
    subst hids
    have hp := pickCandidate_spec (fun a => (s'.heap[a]?.map wanted).getD false) types none
    simp only
    cases hc : pickCandidate (fun a => (s'.heap[a]?.map wanted).getD false) none types with
    | error e =>
      rw [hc] at hp
      obtain ⟨rfl, hp⟩ := hp
      exact ⟨types, hl, by simpa using hp⟩
    | ok c =>
      rw [hc] at hp
      cases c with
      | none =>
        refine .inr ⟨types, hl, ?_⟩
        simp only [Option.toList_none, List.nil_append, List.filter_eq_nil_iff] at hp
        intro a ha
        simpa using hp a ha
      | some a => exact ⟨types, hl, by simpa using hp⟩

/-- Integers with the given names. -/
def namedInts (names : List Bytes) : Option Dec :=
  let tab : Bytes := 0 :: (names.map (· ++ [0])).flatten
  let offs : List Nat := names.foldl (fun l n => l ++ [l.getLastD 1 + n.length + 1]) [1]
  newDecoder ((names.zip offs).map fun x => ((⟨BitVec.ofNat 32 x.2, 0, 4⟩ : BtfType).setKind kindInt).encode .little ++ ByteOrder.little.put32 32).flatten .little ⟨none, tab⟩

/-- Non-vacuity, and what a successful lookup looks like: three types, two of them called `foo`, in a fresh decoder. -/
example : (namedInts [lit "foo", lit "bar", lit "foo"]).map (fun d => (d.anyTypesByName (fun _ => 7) 9 .init (lit "foo")).2) = some (.ok [1, 3]) := by decide +kernel
example : (namedInts [lit "foo", lit "bar", lit "foo"]).map (fun d => (d.anyTypeByName (fun _ => 7) 9 .init (lit "bar")).2) = some (.ok 2) := by decide +kernel
example : lastIndex3 (newEssentialName (lit "foo")) ≠ some 0 ∧ lastIndex3 (newEssentialName (lit "foo___x")) ≠ some 0 := by decide
example : (namedInts [lit "foo", lit "bar", lit "foo"]).map (fun d => ((allIDs d).map (typeName d), d.offsets.length)) = some ([lit "foo", lit "bar", lit "foo"], 3) := by decide +kernel

/-- `AnyTypeByName("foo")` returns a type called `foo___b`: deleting an element skips the next one. -/
theorem wrong_flavour_returned : (namedInts [lit "foo___a", lit "foo___b"]).map (fun d =>
    ((d.anyTypeByName (fun _ => 7) 9 .init (lit "foo")).2, typeName d 2, named d (lit "foo"))) = some (.ok 2, lit "foo___b", []) := by decide +kernel

/-- `AnyTypeByName("foo")` panics if there is one type of that essential name, which is a flavour. -/
theorem anyTypeByName_panics : (namedInts [lit "foo___a"]).map (fun d => (d.anyTypeByName (fun _ => 7) 9 .init (lit "foo")).2) = some (.error .panic) := by decide +kernel

/-- A hash function without collisions on short strings. -/
def wideHash (b : Bytes) : BitVec 32 := b.foldl (fun h x => h * 257 + x.setWidth 32 + 1) 0

/-- A type called `___x` is not found: it is indexed under the empty name. -/
theorem flavour_only_not_found : (namedInts [lit "___x"]).map (fun d => ((d.anyTypesByName wideHash 9 .init (lit "___x")).2, named d (lit "___x"))) =
    some (.error .notFound, [1]) := by decide +kernel

end Ebpf.Btf
