import Verif.Props.Collection

/-!
# C50: every loaded map is populated
-/
namespace Ebpf.Coll

/-- What an entry of a map stands for, given the objects loaded under names: the number itself, or
the program or map with that name. -/
def meaning (k : Kind) (maps progs : List (String × Nat)) : Content → Option Written
  | .value v => some (.value v)
  | .object n => match k with
    | .ofProgs => (progs.lookup n).map .prog
    | .ofMaps => (maps.lookup n).map .map
    | .scalar => some (.value 0)

/-- `c` is what the declared contents of `m` stand for, entry by entry. -/
def Correct (m : MapS) (maps progs : List (String × Nat)) (c : List (Nat × Written)) : Prop :=
  c.map (fun e => (e.1, some e.2)) = m.contents.map (fun e => (e.1, meaning m.kind maps progs e.2))

/-- Maps which should have been written once the names in `V` were visited. -/
def Due (V : List String) (n : String) (m : MapS) : Prop :=
  (m.kind = .scalar ∧ m.replaced = false) ∨ (m.kind ≠ .scalar ∧ n ∈ V)

/-- The maps that are due were written, correctly and once, and no others. -/
structure Pop (S : CSpec) (V : List String) (maps progs : List (String × Nat)) (written : List (Nat × List (Nat × Written)))
    (frozen : List Nat) : Prop where
  known : ∀ n id, maps.lookup n = some id → ∃ m, S.maps.lookup n = some m
  done : ∀ n id m, maps.lookup n = some id → S.maps.lookup n = some m → Due V n m →
    (∃ c, (id, c) ∈ written ∧ Correct m maps progs c) ∧ (m.constant = true → id ∈ frozen)
  only : ∀ id c, (id, c) ∈ written → ∃ n m, maps.lookup n = some id ∧ S.maps.lookup n = some m ∧ Due V n m
  fonly : ∀ id, id ∈ frozen → ∃ n m, maps.lookup n = some id ∧ S.maps.lookup n = some m ∧ Due V n m ∧ m.constant = true
  once : (written.map (·.1)).Nodup
  visited : ∀ n ∈ V, ∃ id, maps.lookup n = some id

/-- `Pop` of a state. -/
abbrev PopS (S : CSpec) (V : List String) (s : L) : Prop := Pop S V s.maps s.progs s.written s.frozen

theorem meaning_mono {k maps progs maps' progs' c w}
    (hm : ∀ n id, maps.lookup n = some id → maps'.lookup n = some id)
    (hp : ∀ n id, progs.lookup n = some id → progs'.lookup n = some id)
    (h : meaning k maps progs c = some w) : meaning k maps' progs' c = some w := by
  cases c with
  | value v => exact h
  | object n =>
    cases k with
    | scalar => exact h
    | ofProgs =>
      simp only [meaning] at *
      cases e : progs.lookup n with
      | none => rw [e] at h; cases h
      | some i => rw [hp n i e]; rw [e] at h; exact h
    | ofMaps =>
      simp only [meaning] at *
      cases e : maps.lookup n with
      | none => rw [e] at h; cases h
      | some i => rw [hm n i e]; rw [e] at h; exact h

theorem correct_mono {m : MapS} {maps progs maps' progs' c}
    (hm : ∀ n id, maps.lookup n = some id → maps'.lookup n = some id)
    (hp : ∀ n id, progs.lookup n = some id → progs'.lookup n = some id)
    (h : Correct m maps progs c) : Correct m maps' progs' c := by
  unfold Correct at *
  generalize m.contents = l at *
  induction l generalizing c with
  | nil => exact h
  | cons e r ih =>
    cases c with
    | nil => cases h
    | cons x c =>
      simp only [List.map_cons, List.cons.injEq, Prod.mk.injEq] at h ⊢
      exact ⟨⟨h.1.1, (meaning_mono hm hp h.1.2.symm).symm⟩, ih h.2⟩

theorem correct_plain (m : MapS) (hs : m.kind = .scalar) (maps progs) : Correct m maps progs (plain m.contents) := by
  unfold Correct plain
  rw [List.map_map]
  apply List.map_congr_left
  intro e _
  rcases e with ⟨k, v | n⟩ <;> simp [meaning, hs]

theorem lookup_count {l : List (String × Nat)} {n id} (h : l.lookup n = some id) : 1 ≤ (l.map (·.2)).count id := by
  induction l with
  | nil => cases h
  | cons e r ih =>
    rcases e with ⟨k, v⟩
    rw [List.map_cons, count_cons_ite]
    by_cases hk : n = k
    · subst hk; rw [List.lookup_cons_self] at h; cases h; simp
    · have h2 : (n == k) = false := by simpa using hk
      simp only [List.lookup_cons, h2] at h
      have := ih h; simp only at this ⊢; omega

theorem lookup_inj {l : List (String × Nat)} {n n' id} (hc : (l.map (·.2)).count id ≤ 1)
    (h : l.lookup n = some id) (h' : l.lookup n' = some id) : n = n' := by
  induction l with
  | nil => cases h
  | cons e r ih =>
    rcases e with ⟨k, v⟩
    rw [List.map_cons, count_cons_ite] at hc
    by_cases hk : n = k
    · subst hk; rw [List.lookup_cons_self] at h; cases h
      by_cases hk' : n' = n
      · exact hk'.symm
      · have h2 : (n' == n) = false := by simpa using hk'
        simp only [List.lookup_cons, h2] at h'
        have := lookup_count h'
        simp only [if_pos] at this hc; omega
    · have h2 : (n == k) = false := by simpa using hk
      simp only [List.lookup_cons, h2] at h
      by_cases hk' : n' = k
      · subst hk'; rw [List.lookup_cons_self] at h'; cases h'
        have := lookup_count h
        simp only [if_pos] at this hc; omega
      · have h3 : (n' == k) = false := by simpa using hk'
        simp only [List.lookup_cons, h3] at h'
        exact ih (by simp only at hc ⊢; omega) h h'

theorem Inv.id_inj {s : L} (h : Inv s) {n n' id} (a : s.maps.lookup n = some id) (b : s.maps.lookup n' = some id) : n = n' := by
  refine lookup_inj ?_ a b
  have := h.count id; have := h.le id; omega

theorem Inv.id_lt {s : L} (h : Inv s) {n id} (a : s.maps.lookup n = some id) : id < s.next := by
  have h1 := lookup_count a
  have h2 := h.count id
  by_cases hlt : id < s.next
  · exact hlt
  · have := h.fresh id (by omega); omega

variable {S : CSpec} {V : List String}

theorem lookup_cons_or {l : List (String × Nat)} {name n : String} {v id : Nat} (h : ((name, v) :: l).lookup n = some id) :
    (n = name ∧ id = v) ∨ (n ≠ name ∧ l.lookup n = some id) := by
  by_cases hk : n = name
  · subst hk; rw [List.lookup_cons_self] at h; cases h; exact .inl ⟨rfl, rfl⟩
  · have h2 : (n == name) = false := by simpa using hk
    simp only [List.lookup_cons, h2] at h
    exact .inr ⟨hk, h⟩

theorem Pop.addMap {maps progs written frozen} (h : Pop S V maps progs written frozen) {name m} (id : Nat)
    (hn : maps.lookup name = none) (hm : S.maps.lookup name = some m) (hd : m.kind = .scalar → m.replaced = true) :
    Pop S V ((name, id) :: maps) progs written frozen := by
  have hx := lookup_cons_ext hn id
  have hV : name ∉ V := by
    intro hv
    obtain ⟨i, hi⟩ := h.visited name hv
    rw [hn] at hi; cases hi
  refine ⟨?_, ?_, ?_, ?_, h.once, ?_⟩
  · intro n i hl
    rcases lookup_cons_or hl with ⟨rfl, rfl⟩ | ⟨-, hl⟩
    · exact ⟨m, hm⟩
    · exact h.known n i hl
  · intro n i m' hl hm' due
    rcases lookup_cons_or hl with ⟨rfl, rfl⟩ | ⟨-, hl⟩
    · rw [hm] at hm'; cases hm'
      rcases due with ⟨a, b⟩ | ⟨a, b⟩
      · rw [hd a] at b; cases b
      · exact absurd b hV
    · obtain ⟨⟨c, hc, hcc⟩, hf⟩ := h.done n i m' hl hm' due
      exact ⟨⟨c, hc, correct_mono hx (fun _ _ e => e) hcc⟩, hf⟩
  · intro i c hi
    obtain ⟨n, m', h1, h2, h3⟩ := h.only i c hi
    exact ⟨n, m', hx _ _ h1, h2, h3⟩
  · intro i hi
    obtain ⟨n, m', h1, h2, h3⟩ := h.fonly i hi
    exact ⟨n, m', hx _ _ h1, h2, h3⟩
  · intro n hv
    obtain ⟨i, hi⟩ := h.visited n hv
    exact ⟨i, hx _ _ hi⟩

theorem Pop.addScalar {maps progs written frozen} (h : Pop S V maps progs written frozen) {name m} (id : Nat)
    (hn : maps.lookup name = none) (hm : S.maps.lookup name = some m) (hs : m.kind = .scalar) (hr : m.replaced = false)
    (hid : ∀ n i, maps.lookup n = some i → i ≠ id) :
    Pop S V ((name, id) :: maps) progs ((id, plain m.contents) :: written) (if m.constant then id :: frozen else frozen) := by
  have hx := lookup_cons_ext hn id
  have hf : ∀ i, i ∈ frozen → i ∈ (if m.constant then id :: frozen else frozen) := by
    intro i hi; split
    · exact List.mem_cons_of_mem _ hi
    · exact hi
  have hdue : Due V name m := .inl ⟨hs, hr⟩
  refine ⟨?_, ?_, ?_, ?_, ?_, ?_⟩
  · intro n i hl
    rcases lookup_cons_or hl with ⟨rfl, rfl⟩ | ⟨-, hl⟩
    · exact ⟨m, hm⟩
    · exact h.known n i hl
  · intro n i m' hl hm' due
    rcases lookup_cons_or hl with ⟨rfl, rfl⟩ | ⟨-, hl⟩
    · rw [hm] at hm'; cases hm'
      exact ⟨⟨_, List.mem_cons_self .., correct_plain m hs _ _⟩, fun hc => by rw [if_pos hc]; exact List.mem_cons_self ..⟩
    · obtain ⟨⟨c, hc, hcc⟩, hfr⟩ := h.done n i m' hl hm' due
      exact ⟨⟨c, List.mem_cons_of_mem _ hc, correct_mono hx (fun _ _ e => e) hcc⟩, fun hc => hf _ (hfr hc)⟩
  · intro i c hi
    rcases List.mem_cons.1 hi with e | hi
    · cases e; exact ⟨name, m, List.lookup_cons_self .., hm, hdue⟩
    · obtain ⟨n, m', h1, h2, h3⟩ := h.only i c hi
      exact ⟨n, m', hx _ _ h1, h2, h3⟩
  · intro i hi
    by_cases hc : m.constant = true
    · rw [if_pos hc] at hi
      rcases List.mem_cons.1 hi with rfl | hi
      · exact ⟨name, m, List.lookup_cons_self .., hm, hdue, hc⟩
      · obtain ⟨n, m', h1, h2, h3⟩ := h.fonly i hi
        exact ⟨n, m', hx _ _ h1, h2, h3⟩
    · rw [if_neg hc] at hi
      obtain ⟨n, m', h1, h2, h3⟩ := h.fonly i hi
      exact ⟨n, m', hx _ _ h1, h2, h3⟩
  · rw [List.map_cons, List.nodup_cons]
    refine ⟨fun hmem => ?_, h.once⟩
    obtain ⟨⟨i, c⟩, he, hi⟩ := List.mem_map.1 hmem
    obtain ⟨n, m', h1, -, -⟩ := h.only i c he
    exact hid n i h1 hi
  · intro n hv
    obtain ⟨i, hi⟩ := h.visited n hv
    exact ⟨i, hx _ _ hi⟩

theorem Pop.addProg {maps progs written frozen} (h : Pop S V maps progs written frozen) {name} (id : Nat)
    (hn : progs.lookup name = none) : Pop S V maps ((name, id) :: progs) written frozen := by
  refine ⟨h.known, ?_, h.only, h.fonly, h.once, h.visited⟩
  intro n i m hl hm due
  obtain ⟨⟨c, hc, hcc⟩, hf⟩ := h.done n i m hl hm due
  exact ⟨⟨c, hc, correct_mono (fun _ _ e => e) (lookup_cons_ext hn id) hcc⟩, hf⟩

theorem Pop.fill {maps progs written frozen} (h : Pop S V maps progs written frozen) {name id m c}
    (hn : maps.lookup name = some id) (hm : S.maps.lookup name = some m) (hs : m.kind ≠ .scalar) (hV : name ∉ V)
    (hinj : ∀ n, maps.lookup n = some id → n = name) (hc : Correct m maps progs c) :
    Pop S (name :: V) maps progs ((id, c) :: written) (if m.constant then id :: frozen else frozen) := by
  have hdue : Due (name :: V) name m := .inr ⟨hs, List.mem_cons_self ..⟩
  have hmono : ∀ n m, Due V n m → Due (name :: V) n m := by
    intro n m d
    rcases d with d | ⟨a, b⟩
    · exact .inl d
    · exact .inr ⟨a, List.mem_cons_of_mem _ b⟩
  have hf : ∀ i, i ∈ frozen → i ∈ (if m.constant then id :: frozen else frozen) := by
    intro i hi; split
    · exact List.mem_cons_of_mem _ hi
    · exact hi
  refine ⟨h.known, ?_, ?_, ?_, ?_, ?_⟩
  · intro n i m' hl hm' due
    by_cases e : n = name
    · subst e
      rw [hn] at hl; cases hl
      rw [hm] at hm'; cases hm'
      exact ⟨⟨c, List.mem_cons_self .., hc⟩, fun hc => by rw [if_pos hc]; exact List.mem_cons_self ..⟩
    · have due' : Due V n m' := by
        rcases due with d | ⟨a, b⟩
        · exact .inl d
        · rcases List.mem_cons.1 b with b | b
          · exact absurd b e
          · exact .inr ⟨a, b⟩
      obtain ⟨⟨c, hc, hcc⟩, hfr⟩ := h.done n i m' hl hm' due'
      exact ⟨⟨c, List.mem_cons_of_mem _ hc, hcc⟩, fun hc => hf _ (hfr hc)⟩
  · intro i c' hi
    rcases List.mem_cons.1 hi with e | hi
    · cases e; exact ⟨name, m, hn, hm, hdue⟩
    · obtain ⟨n, m', h1, h2, h3⟩ := h.only i c' hi
      exact ⟨n, m', h1, h2, hmono _ _ h3⟩
  · intro i hi
    by_cases hc : m.constant = true
    · rw [if_pos hc] at hi
      rcases List.mem_cons.1 hi with rfl | hi
      · exact ⟨name, m, hn, hm, hdue, hc⟩
      · obtain ⟨n, m', h1, h2, h3, h4⟩ := h.fonly i hi
        exact ⟨n, m', h1, h2, hmono _ _ h3, h4⟩
    · rw [if_neg hc] at hi
      obtain ⟨n, m', h1, h2, h3, h4⟩ := h.fonly i hi
      exact ⟨n, m', h1, h2, hmono _ _ h3, h4⟩
  · rw [List.map_cons, List.nodup_cons]
    refine ⟨fun hmem => ?_, h.once⟩
    obtain ⟨⟨i, c'⟩, he, hi⟩ := List.mem_map.1 hmem
    simp only at hi; subst hi
    obtain ⟨n, m', h1, h2, h3⟩ := h.only i c' he
    have := hinj n h1; subst this
    rw [hm] at h2; cases h2
    rcases h3 with ⟨a, -⟩ | ⟨-, b⟩
    · exact hs a
    · exact hV b
  · intro n hv
    rcases List.mem_cons.1 hv with rfl | hv
    · exact ⟨id, hn⟩
    · exact h.visited n hv

/-- Visiting a map that needs nothing. -/
theorem Pop.visit {maps progs written frozen} (h : Pop S V maps progs written frozen) {name id m}
    (hn : maps.lookup name = some id) (hm : S.maps.lookup name = some m) (hs : m.kind = .scalar) :
    Pop S (name :: V) maps progs written frozen := by
  have hiff : ∀ n m', S.maps.lookup n = some m' → (Due (name :: V) n m' ↔ Due V n m') := by
    intro n m' hm'
    constructor
    · intro d
      rcases d with d | ⟨a, b⟩
      · exact .inl d
      · rcases List.mem_cons.1 b with rfl | b
        · rw [hm] at hm'; cases hm'; exact absurd hs a
        · exact .inr ⟨a, b⟩
    · intro d
      rcases d with d | ⟨a, b⟩
      · exact .inl d
      · exact .inr ⟨a, List.mem_cons_of_mem _ b⟩
  refine ⟨h.known, ?_, ?_, ?_, h.once, ?_⟩
  · intro n i m' hl hm' due; exact h.done n i m' hl hm' ((hiff n m' hm').1 due)
  · intro i c hi
    obtain ⟨n, m', h1, h2, h3⟩ := h.only i c hi
    exact ⟨n, m', h1, h2, (hiff _ _ h2).2 h3⟩
  · intro i hi
    obtain ⟨n, m', h1, h2, h3, h4⟩ := h.fonly i hi
    exact ⟨n, m', h1, h2, (hiff _ _ h2).2 h3, h4⟩
  · intro n hv
    rcases List.mem_cons.1 hv with rfl | hv
    · exact ⟨id, hn⟩
    · exact h.visited n hv

variable (f : Nat → Bool)

theorem loadMap_pop {s : L} (h : Inv s) (hp : PopS S V s) (name : String) : PopS S V (loadMap S f s name).2 := by
  unfold loadMap
  split
  · exact hp
  · rename_i hn
    split
    · exact hp
    · rename_i m hm
      split
      · exact hp
      · simp only
        split
        · rename_i hr; exact hp.addMap _ hn hm (fun _ => hr)
        · rename_i hr
          split
          · rename_i hs
            split
            · exact hp
            · refine hp.addScalar s.next hn hm hs (by simpa using hr) (fun n i hl => ?_)
              have := h.id_lt hl; omega
          · rename_i hs; exact hp.addMap _ hn hm (fun e => absurd e hs)

theorem loadRefs_pop (r : List String) : ∀ {s : L}, Inv s → PopS S V s → PopS S V (loadRefs S f s r).2 := by
  induction r with
  | nil => intro s _ h; exact h
  | cons n r ih =>
    intro s h hp
    have hg := (loadMap_good S f h n).1
    have hq := loadMap_pop f h hp n
    unfold loadRefs
    rcases hm : loadMap S f s n with ⟨o, t⟩
    rw [hm] at hg hq
    cases o with
    | none => exact hq
    | some i => exact ih hg.inv hq

theorem loadMap_progs (s : L) (n : String) : (loadMap S f s n).2.progs = s.progs := by
  unfold loadMap
  repeat' (first | rfl | split | simp only)

theorem loadRefs_progs (r : List String) : ∀ (s : L), (loadRefs S f s r).2.progs = s.progs := by
  induction r with
  | nil => intro s; rfl
  | cons n r ih =>
    intro s
    have hm := loadMap_progs (S := S) f s n
    unfold loadRefs
    rcases hm' : loadMap S f s n with ⟨o, t⟩
    rw [hm'] at hm
    cases o with
    | none => exact hm
    | some i => exact (ih t).trans hm

theorem loadProgram_pop {s : L} (h : Inv s) (hp : PopS S V s) (name : String) : PopS S V (loadProgram S f s name).2 := by
  unfold loadProgram
  split
  · exact hp
  · rename_i hn
    split
    · exact hp
    · rename_i p _
      split
      · exact hp
      · have hq := loadRefs_pop f p.refs h hp
        have he := loadRefs_progs (S := S) f p.refs s
        rcases hr : loadRefs S f s p.refs with ⟨b, t⟩
        rw [hr] at hq he
        cases b with
        | false => exact hq
        | true =>
          simp only
          split
          · exact hq
          · refine hq.addProg _ ?_
            simp only at he; rw [he]; exact hn

theorem loadVariable_pop {s : L} (h : Inv s) (hp : PopS S V s) (name : String) : PopS S V (loadVariable S f s name).2 := by
  unfold loadVariable
  split
  · exact hp
  · rename_i sec hs
    have hq := loadMap_pop f h hp sec
    rcases hm : loadMap S f s sec with ⟨o, t⟩
    rw [hm] at hq
    cases o with
    | none => exact hq
    | some i => simp only; split <;> exact hq

theorem resolve_pop (k : Kind) (c : List (Nat × Content)) : ∀ {s : L}, Inv s → PopS S V s →
    PopS S V (resolve S f k s c).2 ∧ ∀ w, (resolve S f k s c).1 = some w →
      w.map (fun e => (e.1, some e.2)) = c.map (fun e => (e.1, meaning k (resolve S f k s c).2.maps (resolve S f k s c).2.progs e.2)) := by
  induction c with
  | nil => intro s _ hp; exact ⟨hp, fun w e => by cases e; rfl⟩
  | cons e r ih =>
    intro s h hp
    rcases e with ⟨key, v | n⟩
    · have hg := ih h hp
      unfold resolve
      rcases hr : resolve S f k s r with ⟨o, t⟩
      rw [hr] at hg
      cases o with
      | none => exact ⟨hg.1, fun w e => by cases e⟩
      | some l =>
        refine ⟨hg.1, fun w e => ?_⟩
        cases e
        simp only [List.map_cons, meaning, hg.2 l rfl]
    · unfold resolve
      cases k with
      | scalar =>
        have hg := ih h hp
        simp only
        rcases hr : resolve S f .scalar s r with ⟨o, t⟩
        rw [hr] at hg
        cases o with
        | none => exact ⟨hg.1, fun w e => by cases e⟩
        | some l =>
          refine ⟨hg.1, fun w e => ?_⟩
          cases e
          simp only [List.map_cons, meaning, hg.2 l rfl]
      | ofProgs =>
        have hg := loadProgram_good S f h n
        have hq := loadProgram_pop f h hp n
        simp only
        rcases hm : loadProgram S f s n with ⟨o, t⟩
        rw [hm] at hg hq
        cases o with
        | none => exact ⟨hq, fun w e => by cases e⟩
        | some i =>
          have hi := hg.2 i rfl
          have hg' := ih hg.1.inv hq
          have hx := (resolve_good S f .ofProgs r hg.1.inv).ext
          simp only [Option.map]
          rcases hr : resolve S f .ofProgs t r with ⟨o, u⟩
          rw [hr] at hg' hx
          cases o with
          | none => exact ⟨hg'.1, fun w e => by cases e⟩
          | some l =>
            refine ⟨hg'.1, fun w e => ?_⟩
            cases e
            have := hx.progs _ _ hi
            simp only [List.map_cons, meaning, hg'.2 l rfl, this, Option.map]
      | ofMaps =>
        have hg := loadMap_good S f h n
        have hq := loadMap_pop f h hp n
        simp only
        rcases hm : loadMap S f s n with ⟨o, t⟩
        rw [hm] at hg hq
        cases o with
        | none => exact ⟨hq, fun w e => by cases e⟩
        | some i =>
          have hi := hg.2 i rfl
          have hg' := ih hg.1.inv hq
          have hx := (resolve_good S f .ofMaps r hg.1.inv).ext
          simp only [Option.map]
          rcases hr : resolve S f .ofMaps t r with ⟨o, u⟩
          rw [hr] at hg' hx
          cases o with
          | none => exact ⟨hg'.1, fun w e => by cases e⟩
          | some l =>
            refine ⟨hg'.1, fun w e => ?_⟩
            cases e
            have := hx.maps _ _ hi
            simp only [List.map_cons, meaning, hg'.2 l rfl, this, Option.map]

theorem populateOne_pop {s : L} (h : Inv s) (hp : PopS S V s) {name : String} (hV : name ∉ V)
    (ht : (populateOne S f s name).1 = true) : PopS S (name :: V) (populateOne S f s name).2 := by
  unfold populateOne at *
  split at ht
  · rename_i id m hid hm
    by_cases hs : m.kind = .scalar
    · rw [if_pos hs]; exact hp.visit hid hm hs
    · rw [if_neg hs] at ht ⊢
      have hg := resolve_good S f m.kind m.contents h
      have hq := resolve_pop f m.kind m.contents h hp
      rcases hr : resolve S f m.kind s m.contents with ⟨o, t⟩
      rw [hr] at hg hq ht
      cases o with
      | none => cases ht
      | some c =>
        simp only at ht ⊢
        by_cases hf : f t.ops = true
        · rw [if_pos hf] at ht; cases ht
        · rw [if_neg hf]
          have hid' := hg.ext.maps _ _ hid
          exact hq.1.fill hid' hm hs hV (fun n hn => hg.inv.id_inj hn hid') (hq.2 c rfl)
  · cases ht

theorem populate_pop (o : List String) : ∀ {s : L} {V : List String}, Inv s → PopS S V s → o.Nodup → (∀ n ∈ o, n ∉ V) →
    (populate S f s o).1 = true → PopS S (o.reverse ++ V) (populate S f s o).2 := by
  induction o with
  | nil => intro s V _ hp _ _ _; exact hp
  | cons n r ih =>
    intro s V h hp hnd hV ht
    rw [List.nodup_cons] at hnd
    have hg := populateOne_good S f h n
    have hq := populateOne_pop f h hp (hV n (List.mem_cons_self ..))
    unfold populate at ht ⊢
    rcases hm : populateOne S f s n with ⟨b, t⟩
    rw [hm] at hg hq ht
    cases b with
    | false => cases ht
    | true =>
      have := ih hg.inv (hq rfl) hnd.2 (fun x hx => by
        rw [List.mem_cons, not_or]
        exact ⟨fun e => hnd.1 (e ▸ hx), hV x (List.mem_cons_of_mem _ hx)⟩) ht
      rw [List.reverse_cons, List.append_assoc]; exact this

theorem assignFields_pop (fs : List Field) : ∀ {s : L} (done : List Field), Inv s → PopS S V s →
    PopS S V (assignFields S f s done fs).2 := by
  induction fs with
  | nil => intro s done _ h; exact h
  | cons fl r ih =>
    intro s done h hp
    unfold assignFields
    split
    · exact hp
    · have hg : Inv (getValue S f s fl).2 ∧ PopS S V (getValue S f s fl).2 := by
        unfold getValue
        rcases hk : fl.kind with _ | _ | _ | _
        · exact ⟨(loadProgram_good S f h fl.name).1.inv, loadProgram_pop f h hp fl.name⟩
        · exact ⟨(loadMap_good S f h fl.name).1.inv, loadMap_pop f h hp fl.name⟩
        · exact ⟨(loadVariable_good S f h fl.name).inv, loadVariable_pop f h hp fl.name⟩
        · exact ⟨h, hp⟩
      rcases hv : getValue S f s fl with ⟨o, t⟩
      rw [hv] at hg
      cases o with
      | none => exact hg.2
      | some o =>
        simp only
        split
        · exact hg.2
        · have hq := ih (fl :: done) hg.1 hg.2
          rcases ha : assignFields S f t (fl :: done) r with ⟨q, u⟩
          rw [ha] at hq
          cases q <;> exact hq

theorem pop_empty : PopS S [] {} := by
  constructor <;> simp

theorem loadAllMaps_pop (o : List String) : ∀ {s : L}, Inv s → PopS S V s → PopS S V (loadAllMaps S f s o).2 ∧
    ((loadAllMaps S f s o).1 = true → ∀ n ∈ o, ∃ i, (loadAllMaps S f s o).2.maps.lookup n = some i) := by
  induction o with
  | nil => intro s _ h; exact ⟨h, fun _ n hn => (by cases hn)⟩
  | cons n r ih =>
    intro s h hp
    have hg := loadMap_good S f h n
    have hq := loadMap_pop f h hp n
    unfold loadAllMaps
    rcases hm : loadMap S f s n with ⟨b, t⟩
    rw [hm] at hg hq
    cases b with
    | none => exact ⟨hq, fun e => (by cases e)⟩
    | some i =>
      have := ih hg.1.inv hq
      refine ⟨this.1, fun e x hx => ?_⟩
      rcases List.mem_cons.1 hx with rfl | hx
      · exact ⟨i, (loadAllMaps_good S f r hg.1.inv).ext.maps _ _ (hg.2 i rfl)⟩
      · exact this.2 e x hx

theorem loadAllProgs_pop (o : List String) : ∀ {s : L}, Inv s → PopS S V s → PopS S V (loadAllProgs S f s o).2 ∧
    ((loadAllProgs S f s o).1 = true → ∀ n ∈ o, ∀ p, S.progs.lookup n = some p → p.unspecified = false →
      ∃ i, (loadAllProgs S f s o).2.progs.lookup n = some i) := by
  induction o with
  | nil => intro s _ h; exact ⟨h, fun _ n hn => (by cases hn)⟩
  | cons n r ih =>
    intro s h hp
    unfold loadAllProgs
    split
    · exact ⟨hp, fun e => (by cases e)⟩
    · rename_i p hpl
      split
      · rename_i hu
        have := ih h hp
        refine ⟨this.1, fun e x hx q hq hqu => ?_⟩
        rcases List.mem_cons.1 hx with rfl | hx
        · rw [hpl] at hq; cases hq; rw [hu] at hqu; cases hqu
        · exact this.2 e x hx q hq hqu
      · have hg := loadProgram_good S f h n
        have hq := loadProgram_pop f h hp n
        rcases hm : loadProgram S f s n with ⟨b, t⟩
        rw [hm] at hg hq
        cases b with
        | none => exact ⟨hq, fun e => (by cases e)⟩
        | some i =>
          have := ih hg.1.inv hq
          refine ⟨this.1, fun e x hx => ?_⟩
          rcases List.mem_cons.1 hx with rfl | hx
          · intro q _ _; exact ⟨i, (loadAllProgs_good S f r hg.1.inv).ext.progs _ _ (hg.2 i rfl)⟩
          · exact this.2 e x hx

theorem loadAllVars_pop (o : List String) : ∀ {s : L}, Inv s → PopS S V s → PopS S V (loadAllVars S f s o).2 := by
  induction o with
  | nil => intro s _ h; exact h
  | cons n r ih =>
    intro s h hp
    have hg := loadVariable_good S f h n
    have hq := loadVariable_pop f h hp n
    unfold loadAllVars
    rcases hm : loadVariable S f s n with ⟨b, t⟩
    rw [hm] at hg hq
    cases b with
    | false => exact hq
    | true => exact ih hg.inv hq

/-- A map has its declared contents, written once, and is frozen exactly when it is constant. -/
def HasContents (m : MapS) (id : Nat) (maps progs : List (String × Nat)) (s : L) : Prop :=
  (∃ c, s.written.lookup id = some c ∧ (s.written.map (·.1)).count id = 1 ∧ Correct m maps progs c) ∧
  (id ∈ s.frozen ↔ m.constant = true)

theorem nodup_lookup {α} {l : List (Nat × α)} (h : (l.map (·.1)).Nodup) {i c} (hm : (i, c) ∈ l) :
    l.lookup i = some c ∧ (l.map (·.1)).count i = 1 := by
  induction l with
  | nil => cases hm
  | cons e r ih =>
    rcases e with ⟨k, v⟩
    simp only [List.map_cons, List.nodup_cons] at h
    rw [List.map_cons, count_cons_ite]
    rcases List.mem_cons.1 hm with e | hm
    · cases e
      have : (r.map (·.1)).count i = 0 := List.count_eq_zero.2 h.1
      exact ⟨List.lookup_cons_self .., by simp [this]⟩
    · have hne : i ≠ k := fun e => h.1 (e ▸ List.mem_map.2 ⟨(i, c), hm, rfl⟩)
      have h2 : (i == k) = false := by simpa using hne
      have := ih h.2 hm
      refine ⟨by simp only [List.lookup_cons, h2]; exact this.1, ?_⟩
      simp only; rw [this.2, if_neg (fun e => hne e.symm)]

theorem Pop.hasContents {s : L} (hi : Inv s) (h : PopS S V s) {n id m} (hl : s.maps.lookup n = some id)
    (hm : S.maps.lookup n = some m) (due : Due V n m) : HasContents m id s.maps s.progs s := by
  obtain ⟨⟨c, hc, hcc⟩, hf⟩ := h.done n id m hl hm due
  have := nodup_lookup h.once hc
  refine ⟨⟨c, this.1, this.2, hcc⟩, fun hfr => ?_, hf⟩
  obtain ⟨n', m', h1, h2, -, h4⟩ := h.fonly id hfr
  have := hi.id_inj h1 hl; subst this
  rw [hm] at h2; cases h2; exact h4

/-- **C50** for `NewCollection`: for every order in which Go may range over its maps (each of which
lists every name), if the call succeeds then every map of the spec is in the collection and has
exactly its declared contents (with names standing for the programs and maps of the collection), is
frozen exactly if it is constant, and every program with a type is in the collection. (A scalar map
that was replaced is not written to.) No object was closed. -/
theorem newCollection_populates (S : CSpec) (f : Nat → Bool) (o : Orders) (c : Collection) (s : L)
    (hmaps : ∀ n, n ∈ o.maps ↔ ∃ m, S.maps.lookup n = some m)
    (hprogs : ∀ n, n ∈ o.progs ↔ ∃ p, S.progs.lookup n = some p)
    (hpop : o.populate.Nodup ∧ ∀ n, n ∈ o.populate ↔ n ∈ o.maps)
    (h : newCollection S f o = (some c, s)) :
    (∀ n m, S.maps.lookup n = some m → ∃ id, c.maps.lookup n = some id ∧
      (¬ (m.kind = .scalar ∧ m.replaced = true) → HasContents m id c.maps c.progs s) ∧
      (m.kind = .scalar ∧ m.replaced = true → id ∉ s.written.map (·.1) ∧ id ∉ s.frozen)) ∧
    (∀ n p, S.progs.lookup n = some p → p.unspecified = false → ∃ id, c.progs.lookup n = some id) := by
  unfold newCollection at h
  simp only at h
  split at h
  · cases h
  · have hi0 : Inv (L.tick {}) := inv_tick inv_empty
    have h1 := loadAllMaps_good S f o.maps hi0
    have p1 := loadAllMaps_pop (S := S) (V := []) f o.maps hi0 pop_empty
    rcases e1 : loadAllMaps S f (L.tick {}) o.maps with ⟨b, t⟩
    rw [e1] at h1 p1 h
    cases b with
    | false => cases h
    | true =>
      simp only at h
      have h2 := loadAllProgs_good S f o.progs h1.inv
      have p2 := loadAllProgs_pop f o.progs h1.inv p1.1
      rcases e2 : loadAllProgs S f t o.progs with ⟨b, u⟩
      rw [e2] at h2 p2 h
      cases b with
      | false => cases h
      | true =>
        simp only at h
        have h3 := loadAllVars_good S f o.vars h2.inv
        have p3 := loadAllVars_pop f o.vars h2.inv p2.1
        rcases e3 : loadAllVars S f u o.vars with ⟨b, v⟩
        rw [e3] at h3 p3 h
        cases b with
        | false => cases h
        | true =>
          simp only at h
          have h4 := populate_good S f o.populate h3.inv
          have p4 := populate_pop f o.populate h3.inv p3 hpop.1 (fun _ _ h => (by cases h))
          rcases e4 : populate S f v o.populate with ⟨b, w⟩
          rw [e4] at h4 p4 h
          cases b with
          | false => cases h
          | true =>
            cases h
            have p5 := p4 rfl
            refine ⟨?_, ?_⟩
            · intro n m hm
              have hno : n ∈ o.maps := (hmaps n).2 ⟨m, hm⟩
              obtain ⟨i, hi⟩ := p1.2 rfl n hno
              have hi' := h4.ext.maps _ _ (h3.ext.maps _ _ (h2.ext.maps _ _ hi))
              refine ⟨i, hi', fun hr => ?_, fun hr => ⟨fun hw => ?_, fun hw => ?_⟩⟩
              · refine p5.hasContents h4.inv hi' hm ?_
                by_cases hs : m.kind = .scalar
                · exact .inl ⟨hs, by cases hrr : m.replaced; rfl; exact absurd ⟨hs, hrr⟩ hr⟩
                · exact .inr ⟨hs, List.mem_append_left _ (List.mem_reverse.2 ((hpop.2 n).2 hno))⟩
              · obtain ⟨⟨x, cc⟩, hx, rfl⟩ := List.mem_map.1 hw
                obtain ⟨n', m', a1, a2, a3⟩ := p5.only x cc hx
                have := h4.inv.id_inj a1 hi'; subst this
                rw [hm] at a2; cases a2
                rcases a3 with ⟨-, b⟩ | ⟨b, -⟩
                · rw [hr.2] at b; cases b
                · exact b hr.1
              · obtain ⟨n', m', a1, a2, a3, -⟩ := p5.fonly i hw
                have := h4.inv.id_inj a1 hi'; subst this
                rw [hm] at a2; cases a2
                rcases a3 with ⟨-, b⟩ | ⟨b, -⟩
                · rw [hr.2] at b; cases b
                · exact b hr.1
            · intro n p hp hu
              obtain ⟨i, hi⟩ := p2.2 rfl n ((hprogs n).2 ⟨p, hp⟩) p hp hu
              exact ⟨i, h4.ext.progs _ _ (h3.ext.progs _ _ hi)⟩

theorem loadAndAssign_pop (S : CSpec) (f : Nat → Bool) (fields : List Field) (order : List String) (ids : List Nat) (s : L)
    (hnd : order.Nodup) (h : loadAndAssign S f fields order = (some ids, s)) :
    ∃ u, Inv u ∧ PopS S (order.reverse ++ []) u ∧ Ext (beforePopulate S f fields) u ∧
      s = closeRest (release u (namesOf .map fields) (namesOf .prog fields)) := by
  unfold loadAndAssign at h
  simp only at h
  split at h
  · cases h
  · have hi0 : Inv (L.tick {}) := inv_tick inv_empty
    have ha := (assignFields_good S f fields [] hi0).1
    have hp := assignFields_pop (S := S) (V := []) f fields [] hi0 pop_empty
    have hb : beforePopulate S f fields = (assignFields S f (L.tick {}) [] fields).2 := rfl
    rw [hb]
    rcases hA : assignFields S f (L.tick {}) [] fields with ⟨o, t⟩
    rw [hA] at ha hp h
    cases o with
    | none => cases h
    | some ids' =>
      simp only at h
      have hg := populate_good S f order ha.inv
      have hq := populate_pop f order ha.inv hp hnd (fun _ _ h => (by cases h))
      rcases hP : populate S f t order with ⟨b, u⟩
      rw [hP] at hg hq h
      cases b with
      | false => cases h
      | true =>
        simp only at h
        split at h
        · cases h
        · cases h; exact ⟨u, hg.inv, hq rfl, hg.ext, rfl⟩

/-- **C50** for `LoadAndAssign`, partial: if the call succeeds, every map that was loaded and is a
scalar map, or whose name the `range` loop over the loaded maps produced, has exactly its declared
contents. The loop is certain to produce the names loaded before it begins; for names that are
loaded while it runs the Go language does not say. What is missing: maps that are loaded while the
loop runs, see `loadAndAssign_misses`. -/
theorem loadAndAssign_populates_partial (S : CSpec) (f : Nat → Bool) (fields : List Field) (order : List String)
    (ids : List Nat) (s : L)
    (hnd : order.Nodup) (hall : ∀ n id, (beforePopulate S f fields).maps.lookup n = some id → n ∈ order)
    (h : loadAndAssign S f fields order = (some ids, s)) (n : String) (id : Nat) (m : MapS)
    (hl : s.mapLog.lookup n = some id) (hm : S.maps.lookup n = some m) :
    (m.kind = .scalar → m.replaced = false → HasContents m id s.mapLog s.progLog s) ∧
    (m.kind ≠ .scalar → n ∈ order → HasContents m id s.mapLog s.progLog s) ∧
    (m.kind ≠ .scalar → (∃ i, (beforePopulate S f fields).maps.lookup n = some i) → HasContents m id s.mapLog s.progLog s) := by
  obtain ⟨u, hi, hp, -, rfl⟩ := loadAndAssign_pop S f fields order ids s hnd h
  have em : (closeRest (release u (namesOf .map fields) (namesOf .prog fields))).mapLog = u.maps := hi.mlog
  have ep : (closeRest (release u (namesOf .map fields) (namesOf .prog fields))).progLog = u.progs := hi.plog
  rw [em] at hl ⊢
  rw [ep]
  have key : m.kind ≠ .scalar → n ∈ order → HasContents m id u.maps u.progs u := fun hs hn =>
    hp.hasContents hi hl hm (.inr ⟨hs, List.mem_append_left _ (List.mem_reverse.2 hn)⟩)
  exact ⟨fun hs hr => hp.hasContents hi hl hm (.inl ⟨hs, hr⟩), key, fun hs ⟨i, hi⟩ => key hs (hall n i hi)⟩

/-- If every map which holds programs or maps is a field of the struct, then all maps are populated,
whatever the order. -/
theorem loadAndAssign_populates_assigned (S : CSpec) (f : Nat → Bool) (fields : List Field) (order : List String)
    (ids : List Nat) (s : L)
    (hnd : order.Nodup) (hall : ∀ n id, (beforePopulate S f fields).maps.lookup n = some id → n ∈ order)
    (hf : ∀ n m, S.maps.lookup n = some m → m.kind ≠ .scalar → n ∈ namesOf .map fields)
    (h : loadAndAssign S f fields order = (some ids, s)) (n : String) (id : Nat) (m : MapS)
    (hl : s.mapLog.lookup n = some id) (hm : S.maps.lookup n = some m) (hr : m.kind = .scalar → m.replaced = false) :
    HasContents m id s.mapLog s.progLog s := by
  have hA := loadAndAssign_populates_partial S f fields order ids s hnd hall h n id m hl hm
  by_cases hs : m.kind = .scalar
  · exact hA.1 hs (hr hs)
  · refine hA.2.2 hs ?_
    have hmem := hf n m hm hs
    simp only [namesOf, List.mem_map, List.mem_filter, decide_eq_true_eq] at hmem
    obtain ⟨fl, ⟨hfl, hk⟩, rfl⟩ := hmem
    have hok : ∃ l, (assignFields S f (L.tick {}) [] fields).1 = some l := by
      unfold loadAndAssign at h
      simp only at h
      split at h
      · cases h
      · rcases hA : assignFields S f (L.tick {}) [] fields with ⟨o, t⟩
        rw [hA] at h
        cases o with
        | none => cases h
        | some l => exact ⟨l, rfl⟩
    have gen : ∀ (fs : List Field) (s : L) done l, Inv s → (assignFields S f s done fs).1 = some l → ∀ fl ∈ fs, fl.kind = .map →
        ∃ i, (assignFields S f s done fs).2.maps.lookup fl.name = some i := by
      intro fs
      induction fs with
      | nil => intro _ _ _ _ _ fl h; cases h
      | cons g r ih =>
        intro s done l hs h fl hfl hk
        unfold assignFields at h ⊢
        split at h
        · cases h
        · rename_i hd
          rw [if_neg hd]
          have hgv : Inv (getValue S f s g).2 := by
            unfold getValue
            rcases hk : g.kind with _ | _ | _ | _
            · exact (loadProgram_good S f hs g.name).1.inv
            · exact (loadMap_good S f hs g.name).1.inv
            · exact (loadVariable_good S f hs g.name).inv
            · exact hs
          rcases hv : getValue S f s g with ⟨o, t⟩
          rw [hv] at h hgv
          cases o with
          | none => cases h
          | some o =>
            by_cases hok : g.ok = true
            · simp only [hok] at h ⊢
              have hrest := (assignFields_good S f r (g :: done) hgv).1
              have hi := ih t (g :: done)
              rcases hq : assignFields S f t (g :: done) r with ⟨q, u⟩
              rw [hq] at h hrest hi
              cases q with
              | none => cases h
              | some l' =>
                rcases List.mem_cons.1 hfl with rfl | hfl
                · unfold getValue at hv; rw [hk] at hv; simp only [Prod.mk.injEq] at hv
                  have := (loadMap_good S f hs fl.name).2
                  rcases hm : loadMap S f s fl.name with ⟨b, w⟩
                  rw [hm] at hv this
                  cases b with
                  | none => cases hv.1
                  | some i =>
                    have h2 := hv.2; simp only at h2; subst h2
                    exact ⟨i, hrest.ext.maps _ _ (this i rfl)⟩
                · exact hi l' hgv rfl fl hfl hk
            · simp [hok] at h
    obtain ⟨l, hl'⟩ := hok
    exact gen fields (L.tick {}) [] l (inv_tick inv_empty) hl' fl hfl hk

end Ebpf.Coll
