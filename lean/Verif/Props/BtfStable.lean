import Verif.Props.BtfIndex
/-! # `TypeByID` on arbitrary blobs: objects are stable and keep their names -/
namespace Ebpf.Btf

/-- Later states: known types stay at their address, objects keep their name. -/
structure Later (s s' : DState) : Prop where
  types : ∀ id a, List.lookup id s.types = some a → List.lookup id s'.types = some a
  heap : ∀ (a : Nat) n, s.heap[a]? = some n → ∃ n', s'.heap[a]? = some n' ∧ n'.name = n.name

theorem Later.refl (s : DState) : Later s s := ⟨fun _ _ h => h, fun _ n h => ⟨n, h, rfl⟩⟩

theorem Later.trans {s t u : DState} (h : Later s t) (h' : Later t u) : Later s u where
  types id a x := h'.types id a (h.types id a x)
  heap a n x := by
    obtain ⟨n1, h1, e1⟩ := h.heap a n x
    obtain ⟨n2, h2, e2⟩ := h'.heap a n1 h1
    exact ⟨n2, h2, e2.trans e1⟩

/-- States of a decoder. -/
structure NInv (d : Dec) (s : DState) : Prop where
  void : s.heap[0]? = some .void
  ok : ∀ id a, List.lookup id s.types = some a → 0 < a ∧ id ≠ 0 ∧ ∃ r n, d.record id = some r ∧ s.heap[a]? = some n ∧ n.name = r.early.name
  inj : ∀ id id' a, List.lookup id s.types = some a → List.lookup id' s.types = some a → id = id'

theorem ninv_init (d : Dec) : NInv d .init := by
  constructor <;> simp [DState.init]

theorem fill_name : ∀ (n : Node ID) (as : List Nat) (n' : Node Nat), fill n as = some n' → n'.name = n.name := by
  intro n as n' h
  cases n <;> (unfold fill at h; split at h <;> first | (simp only [Option.some.injEq] at h; subst h; simp_all [Node.name]; done) | (simp_all; done) | skip)
  all_goals simp_all
  all_goals (try obtain ⟨_, _, rfl⟩ := h; rfl)

theorem applyTag_name {R : Type} (p : Option Nat) (n n' : Node R) (v : Bytes) (i : Int) (h : applyTag p n v i = some n') : n'.name = n.name := by
  unfold applyTag at h
  grind [Node.name]

theorem parseKind_name (bo : ByteOrder) (look legacy h name b r) (n : Node ID) (he : parseKind bo look legacy h name b = some r) (hn : r.node = some n) :
    n.name = r.early.name ∧ (r.early.name = name ∨ r.early.name = []) := by
  unfold parseKind at he
  split at he
  all_goals grind [Node.name, Option.map_eq_some_iff]

theorem lookup_delete (s : DState) (id id' : ID) : List.lookup id' (s.delete id).types = if id' = id then none else List.lookup id' s.types := by
  unfold DState.delete
  simp only
  induction s.types with
  | nil => simp
  | cons p l ih =>
    obtain ⟨i, a⟩ := p
    rw [List.filter_cons]
    by_cases hi : i = id
    · subst hi
      simp only [ne_eq, not_true_eq_false, decide_false, Bool.false_eq_true, if_false]
      rw [ih]
      by_cases h' : id' = i
      · simp [h']
      · rw [if_neg h', if_neg h', List.lookup_cons]
        have : (id' == i) = false := by simpa using h'
        rw [this]
    · simp only [ne_eq, hi, not_false_eq_true, decide_true, if_true]
      rw [List.lookup_cons, List.lookup_cons]
      by_cases h' : id' = i
      · subst h'
        simp [hi]
      · have : (id' == i) = false := by simpa using h'
        rw [this, ih]

theorem ninv_delete {d : Dec} {s : DState} (h : NInv d s) (id : ID) : NInv d (s.delete id) where
  void := h.void
  ok i a hl := by
    rw [lookup_delete] at hl
    split at hl
    · cases hl
    · exact h.ok i a hl
  inj i i' a h1 h2 := by
    rw [lookup_delete] at h1 h2
    split at h1
    · cases h1
    · split at h2
      · cases h2
      · exact h.inj i i' a h1 h2

theorem later_delete {s t : DState} (h : Later s t) (id : ID) (hn : List.lookup id s.types = none) : Later s (t.delete id) where
  types i a hl := by
    rw [lookup_delete, if_neg ?_]
    · exact h.types i a hl
    · rintro rfl; rw [hn] at hl; cases hl
  heap := h.heap

theorem set_later {s : DState} {a : Nat} {n m : Node Nat} (hm : s.heap[a]? = some m) (hn : n.name = m.name) : Later s (s.set a n) where
  types _ _ h := h
  heap i x hx := by
    unfold DState.set
    simp only [List.getElem?_set]
    by_cases h : a = i
    · subst h
      rw [hm] at hx; cases hx
      have hl : a < s.heap.length := by
        rcases Nat.lt_or_ge a s.heap.length with h | h
        · exact h
        · rw [List.getElem?_eq_none h] at hm; cases hm
      exact ⟨n, by simp [hl], hn⟩
    · exact ⟨x, by simp [h, hx], rfl⟩

theorem set_ninv {d : Dec} {s : DState} (h : NInv d s) {a : Nat} {n m : Node Nat} (ha : 0 < a) (hm : s.heap[a]? = some m) (hn : n.name = m.name) : NInv d (s.set a n) where
  void := by
    unfold DState.set
    simp only [List.getElem?_set]
    rw [if_neg (by omega)]; exact h.void
  ok i b hl := by
    obtain ⟨h1, h0, r, k, h2, h3, h4⟩ := h.ok i b hl
    obtain ⟨k', h5, h6⟩ := (set_later hm hn).heap b k h3
    exact ⟨h1, h0, r, k', h2, h5, h6.trans h4⟩
  inj := h.inj

/-- What every call of `inflateType` satisfies. -/
def Sound (d : Dec) (f : DState → ID → DState × Option Nat) : Prop :=
  ∀ s id, NInv d s → Later s (f s id).1 ∧ NInv d (f s id).1 ∧ ∀ a, (f s id).2 = some a → if id = 0 then a = 0 else List.lookup id (f s id).1.types = some a

theorem inflateAll_sound (d : Dec) (f) (hf : Sound d f) : ∀ ids s, NInv d s → Later s (inflateAll f s ids).1 ∧ NInv d (inflateAll f s ids).1 := by
  intro ids
  induction ids with
  | nil => intro s h; exact ⟨.refl s, h⟩
  | cons id ids ih =>
    intro s h
    obtain ⟨h1, h2, _⟩ := hf s id h
    unfold inflateAll
    rcases hfs : f s id with ⟨s1, r⟩
    rw [hfs] at h1 h2
    cases r with
    | none => exact ⟨h1, h2⟩
    | some a =>
      obtain ⟨h3, h4⟩ := ih s1 h2
      simp only
      rcases hr : inflateAll f s1 ids with ⟨s2, r⟩
      rw [hr] at h3 h4
      cases r <;> exact ⟨h1.trans h3, h4⟩

theorem applyTags_sound (d : Dec) (f) (hf : Sound d f) (a : Nat) (ha : 0 < a) : ∀ ids s, NInv d s → Later s (applyTags f a s ids).1 ∧ NInv d (applyTags f a s ids).1 := by
  intro ids
  induction ids with
  | nil => intro s h; exact ⟨.refl s, h⟩
  | cons id ids ih =>
    intro s h
    obtain ⟨h1, h2, _⟩ := hf s id h
    unfold applyTags
    rcases hfs : f s id with ⟨s1, r⟩
    rw [hfs] at h1 h2
    cases r with
    | none => exact ⟨h1, h2⟩
    | some ta =>
      simp only
      split
      · split
        · exact ⟨h1, h2⟩
        · rename_i n hn
          split
          · exact ⟨h1, h2⟩
          · rename_i n' hn'
            have he := applyTag_name _ _ _ _ _ hn'
            obtain ⟨h3, h4⟩ := ih (s1.set a n') (set_ninv h2 ha hn he)
            exact ⟨h1.trans ((set_later hn he).trans h3), h4⟩
      · exact ⟨h1, h2⟩

theorem inflate_sound (d : Dec) : ∀ fuel, Sound d (d.inflate fuel) := by
  intro fuel
  induction fuel with
  | zero => intro s id h; exact ⟨.refl s, h, by intro a ha; cases ha⟩
  | succ fuel ih =>
    intro s id h
    unfold Dec.inflate
    by_cases h0 : id = 0
    · rw [if_pos h0]
      exact ⟨.refl s, h, by intro a ha; rw [if_pos h0]; cases ha; rfl⟩
    rw [if_neg h0]
    cases hl : List.lookup id s.types with
    | some a => exact ⟨.refl s, h, by intro b hb; rw [if_neg h0]; cases hb; exact hl⟩
    | none =>
      simp only
      cases hr : d.record id with
      | none => exact ⟨.refl s, h, by intro a ha; cases ha⟩
      | some r =>
        simp only
        have hpos : 0 < s.heap.length := by
          rcases Nat.eq_zero_or_pos s.heap.length with h' | h'
          · have := h.void; rw [List.getElem?_eq_none (by omega)] at this; cases this
          · exact h'
        have hbound : ∀ i a, List.lookup i s.types = some a → a < s.heap.length := by
          intro i a hia
          obtain ⟨_, _, _, n, _, hn, _⟩ := h.ok i a hia
          rcases Nat.lt_or_ge a s.heap.length with h' | h'
          · exact h'
          · rw [List.getElem?_eq_none h'] at hn; cases hn
        have hlk : ∀ i, List.lookup i ((id, s.heap.length) :: s.types) = if i = id then some s.heap.length else List.lookup i s.types := by
          intro i
          rw [List.lookup_cons]
          by_cases hi : i = id
          · simp [hi]
          · have : (i == id) = false := by simpa using hi
            rw [this, if_neg hi]
        have hnew : s.heap.length < (s.heap ++ [r.early]).length := by simp
        have i1 : NInv d ⟨s.heap ++ [r.early], (id, s.heap.length) :: s.types⟩ := by
          constructor
          · show (s.heap ++ [r.early])[0]? = _
            rw [List.getElem?_append_left hpos]; exact h.void
          · intro i a hia
            replace hia : List.lookup i ((id, s.heap.length) :: s.types) = some a := hia
            rw [hlk] at hia
            split at hia
            · rename_i e; cases hia; subst e
              exact ⟨hpos, h0, r, r.early, hr, by simp, rfl⟩
            · obtain ⟨h1, h1', r', n, h2, h3, h4⟩ := h.ok i a hia
              exact ⟨h1, h1', r', n, h2, by show (s.heap ++ [r.early])[a]? = _; rw [List.getElem?_append_left (hbound i a hia)]; exact h3, h4⟩
          · intro i i' a h1 h2
            replace h1 : List.lookup i ((id, s.heap.length) :: s.types) = some a := h1
            replace h2 : List.lookup i' ((id, s.heap.length) :: s.types) = some a := h2
            rw [hlk] at h1 h2
            split at h1 <;> split at h2
            · simp_all
            · cases h1; have := hbound _ _ h2; omega
            · cases h2; have := hbound _ _ h1; omega
            · exact h.inj i i' a h1 h2
        have e1 : Later s ⟨s.heap ++ [r.early], (id, s.heap.length) :: s.types⟩ := by
          constructor
          · intro i a hia
            show List.lookup i ((id, s.heap.length) :: s.types) = some a
            rw [hlk, if_neg ?_]
            · exact hia
            · rintro rfl; rw [hl] at hia; cases hia
          · intro a n hn
            refine ⟨n, ?_, rfl⟩
            have : a < s.heap.length := by
              rcases Nat.lt_or_ge a s.heap.length with h' | h'
              · exact h'
              · rw [List.getElem?_eq_none h'] at hn; cases hn
            show (s.heap ++ [r.early])[a]? = _
            rw [List.getElem?_append_left this]; exact hn
        have hself : List.lookup id (⟨s.heap ++ [r.early], (id, s.heap.length) :: s.types⟩ : DState).types = some s.heap.length := by
          show List.lookup id ((id, s.heap.length) :: s.types) = _
          rw [hlk, if_pos rfl]
        obtain ⟨e2, i2⟩ := inflateAll_sound d _ ih r.fix _ i1
        rcases ha : inflateAll (d.inflate fuel) ⟨s.heap ++ [r.early], (id, s.heap.length) :: s.types⟩ r.fix with ⟨s2, as⟩
        rw [ha] at e2 i2
        cases as with
        | none => exact ⟨later_delete (e1.trans e2) id hl, ninv_delete i2 id, by intro a ha; cases ha⟩
        | some as =>
          simp only
          cases hfill : r.node.bind (fill · as) with
          | none => exact ⟨later_delete (e1.trans e2) id hl, ninv_delete i2 id, by intro a ha; cases ha⟩
          | some n =>
            simp only
            have hself2 := e2.types _ _ hself
            obtain ⟨_, _, r', m, hr', hm, hname⟩ := i2.ok _ _ hself2
            rw [hr] at hr'; cases hr'
            have hnn : n.name = m.name := by
              rw [hname]
              cases hnode : r.node with
              | none => rw [hnode] at hfill; cases hfill
              | some x =>
                rw [hnode] at hfill
                rw [fill_name _ _ _ hfill]
                unfold Dec.record at hr
                split at hr
                · cases hr
                · split at hr
                  · cases hr
                  · exact (parseKind_name _ _ _ _ _ _ _ _ hr hnode).1
            obtain ⟨e3, i3⟩ := applyTags_sound d _ ih s.heap.length hpos (d.tagsOf id) (s2.set s.heap.length n) (set_ninv i2 hpos hm hnn)
            have e23 := (set_later hm hnn).trans e3
            rcases ht : applyTags (d.inflate fuel) s.heap.length (s2.set s.heap.length n) (d.tagsOf id) with ⟨s3, b⟩
            rw [ht] at e23 i3
            cases b with
            | false => exact ⟨later_delete (e1.trans (e2.trans e23)) id hl, ninv_delete i3 id, by intro a ha; cases ha⟩
            | true => exact ⟨e1.trans (e2.trans e23), i3, by intro a ha; rw [if_neg h0]; cases ha; exact e23.types _ _ hself2⟩

end Ebpf.Btf
