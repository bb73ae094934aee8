import Verif.Props.CollectionPop

/-!
# C49, C50: examples, and a map that is left empty
-/
namespace Ebpf.Coll

/-- A program array `A` holding the program `P`, which uses the map of maps `H`, which holds the map `I`. -/
def exSpec : CSpec where
  maps := [("A", { kind := .ofProgs, contents := [(0, .object "P")] }),
    ("H", { kind := .ofMaps, contents := [(7, .object "I")] }),
    ("I", { contents := [(1, .value 5)] }),
    (".rodata", { contents := [(0, .value 9)], constant := true })]
  progs := [("P", { refs := ["H", ".rodata"] })]
  vars := [("v", ".rodata")]

/-- Only `A` is asked for. -/
def exFields : List Field := [{ kind := .map, name := "A" }]

/-- When the loop begins only `A` is loaded, so going over `A` alone is what Go may do. -/
theorem ex_before : (beforePopulate exSpec (fun _ => false) exFields).maps = [("A", 0)] := by decide +kernel

/-- **C50** fails for maps that are loaded while the loaded maps are being populated: `LoadAndAssign`
succeeds, in the order in which the loop visits exactly the maps that were loaded when it began, but `H`,
which the program in `A` uses, is never populated. With the other order it is. -/
theorem loadAndAssign_misses :
    ∃ (S : CSpec) (fields : List Field) (id : Nat) (m : MapS),
      let order := (beforePopulate S (fun _ => false) fields).maps.map (·.1)
      let s := (loadAndAssign S (fun _ => false) fields order).2
      let s' := (loadAndAssign S (fun _ => false) fields ("H" :: order).reverse).2
      (loadAndAssign S (fun _ => false) fields order).1 = some [0] ∧
      (loadAndAssign S (fun _ => false) fields ("H" :: order).reverse).1 = some [0] ∧
      s.mapLog.lookup "H" = some id ∧ S.maps.lookup "H" = some m ∧ m.contents ≠ [] ∧ s.written.lookup id = none ∧
      s'.mapLog.lookup "H" = some id ∧ s'.written.lookup id = some [(7, .map 4)] ∧ s'.mapLog.lookup "I" = some 4 :=
  ⟨exSpec, exFields, 1, { kind := .ofMaps, contents := [(7, .object "I")] }, by decide +kernel⟩

/-- The hypotheses of `loadAndAssign_populates_assigned` can be met: all maps are fields. -/
example :
    (loadAndAssign exSpec (fun _ => false) [⟨.map, "A", true⟩, ⟨.map, "H", true⟩, ⟨.prog, "P", true⟩, ⟨.var, "v", true⟩] ["H", "A", ".rodata"]).1
      = some [0, 1, 3] := by decide +kernel

/-- `NewCollection` succeeds on the example. -/
example : (newCollection exSpec (fun _ => false) ⟨["I", "H", ".rodata", "A"], ["P"], ["v"], ["H", "A", ".rodata", "I"]⟩).1
    = some ⟨[("A", 3), (".rodata", 2), ("H", 1), ("I", 0)], [("P", 4)]⟩ := by decide +kernel

/-- A failure while loading the program closes all five maps. -/
example : (newCollection exSpec (fun k => k == 7) ⟨["I", "H", ".rodata", "A"], ["P"], ["v"], ["H", "A", ".rodata", "I"]⟩).1 = none ∧
    (newCollection exSpec (fun k => k == 7) ⟨["I", "H", ".rodata", "A"], ["P"], ["v"], ["H", "A", ".rodata", "I"]⟩).2.closed = [3, 2, 1, 0] := by
  decide +kernel

theorem loadMap_closed (S : CSpec) (f : Nat → Bool) (s : L) (n : String) {i} (h : (loadMap S f s n).1 = some i) :
    (loadMap S f s n).2.closed = s.closed := by
  unfold loadMap at *
  split at h
  · rename_i e; simp only [e]
  · rename_i e; simp only
    split at h
    · cases h
    · rename_i e'; 
      split at h
      · cases h
      · rename_i hf; rw [if_neg hf]
        simp only at h ⊢
        split at h
        · rename_i hr; rw [if_pos hr]; rfl
        · rename_i hr; rw [if_neg hr]
          split at h
          · rename_i hs; rw [if_pos hs]
            split at h
            · cases h
            · rename_i hf'; rw [if_neg hf']; rfl
          · rename_i hs; rw [if_neg hs]; rfl

theorem loadRefs_closed (S : CSpec) (f : Nat → Bool) (r : List String) : ∀ s, (loadRefs S f s r).1 = true → (loadRefs S f s r).2.closed = s.closed := by
  induction r with
  | nil => intro s _; rfl
  | cons n r ih =>
    intro s h
    have hc := @loadMap_closed S f s n
    unfold loadRefs at h ⊢
    rcases hm : loadMap S f s n with ⟨o, t⟩
    rw [hm] at h hc
    cases o with
    | none => cases h
    | some i => exact (ih t h).trans (hc rfl)

theorem loadProgram_closed (S : CSpec) (f : Nat → Bool) (s : L) (n : String) {i} (h : (loadProgram S f s n).1 = some i) :
    (loadProgram S f s n).2.closed = s.closed := by
  unfold loadProgram at *
  split at h
  · rename_i e; simp only [e]
  · rename_i e; simp only
    split at h
    · cases h
    · rename_i p e'
      split at h
      · cases h
      · rename_i hu; rw [if_neg hu]
        have hc := loadRefs_closed S f p.refs s
        rcases hr : loadRefs S f s p.refs with ⟨b, t⟩
        rw [hr] at h hc
        cases b with
        | false => cases h
        | true =>
          simp only at h ⊢
          split at h
          · cases h
          · rename_i hf; rw [if_neg hf]; exact hc rfl

theorem loadVariable_closed (S : CSpec) (f : Nat → Bool) (s : L) (n : String) (h : (loadVariable S f s n).1 = true) :
    (loadVariable S f s n).2.closed = s.closed := by
  unfold loadVariable at *
  split at h
  · cases h
  · rename_i sec e
    have hc := @loadMap_closed S f s sec
    rcases hm : loadMap S f s sec with ⟨o, t⟩
    rw [hm] at h hc
    cases o with
    | none => cases h
    | some i =>
      simp only at h ⊢
      split at h
      · cases h
      · rename_i hf; rw [if_neg hf]; exact hc rfl

theorem resolve_closed (S : CSpec) (f : Nat → Bool) (k : Kind) (c : List (Nat × Content)) : ∀ s {w}, (resolve S f k s c).1 = some w →
    (resolve S f k s c).2.closed = s.closed := by
  induction c with
  | nil => intro s w _; rfl
  | cons e r ih =>
    intro s w h
    rcases e with ⟨key, v | n⟩
    · unfold resolve at h ⊢
      have hi := @ih s
      rcases hr : resolve S f k s r with ⟨o, t⟩
      rw [hr] at h hi
      cases o with
      | none => cases h
      | some l => exact hi rfl
    · unfold resolve at h ⊢
      cases k with
      | scalar =>
        simp only at h ⊢
        have hi := @ih s
        rcases hr : resolve S f .scalar s r with ⟨o, t⟩
        rw [hr] at h hi
        cases o with
        | none => cases h
        | some l => exact hi rfl
      | ofProgs =>
        have hc := @loadProgram_closed S f s n
        simp only at h ⊢
        rcases hm : loadProgram S f s n with ⟨o, t⟩
        rw [hm] at h hc
        cases o with
        | none => cases h
        | some i =>
          simp only [Option.map] at h ⊢
          have hi := @ih t
          rcases hr : resolve S f .ofProgs t r with ⟨o, u⟩
          rw [hr] at h hi
          cases o with
          | none => cases h
          | some l => exact (hi rfl).trans (hc rfl)
      | ofMaps =>
        have hc := @loadMap_closed S f s n
        simp only at h ⊢
        rcases hm : loadMap S f s n with ⟨o, t⟩
        rw [hm] at h hc
        cases o with
        | none => cases h
        | some i =>
          simp only [Option.map] at h ⊢
          have hi := @ih t
          rcases hr : resolve S f .ofMaps t r with ⟨o, u⟩
          rw [hr] at h hi
          cases o with
          | none => cases h
          | some l => exact (hi rfl).trans (hc rfl)

theorem populate_closed (S : CSpec) (f : Nat → Bool) (r : List String) : ∀ s, (populate S f s r).1 = true → (populate S f s r).2.closed = s.closed := by
  induction r with
  | nil => intro s _; rfl
  | cons n r ih =>
    intro s h
    have hc : (populateOne S f s n).1 = true → (populateOne S f s n).2.closed = s.closed := by
      intro h
      unfold populateOne at *
      split at h
      · rename_i id m _ _
        split at h
        · rename_i hs; rw [if_pos hs]
        · rename_i hs; rw [if_neg hs]
          have hc := @resolve_closed S f m.kind m.contents s
          rcases hr : resolve S f m.kind s m.contents with ⟨o, t⟩
          rw [hr] at h hc
          cases o with
          | none => cases h
          | some c =>
            simp only at h ⊢
            split at h
            · cases h
            · rename_i hf; rw [if_neg hf]; exact hc rfl
      · cases h
    unfold populate at h ⊢
    rcases hm : populateOne S f s n with ⟨o, t⟩
    rw [hm] at h hc
    cases o with
    | false => cases h
    | true => exact (ih t h).trans (hc rfl)

theorem loadAllMaps_closed (S : CSpec) (f : Nat → Bool) (r : List String) : ∀ s, (loadAllMaps S f s r).1 = true → (loadAllMaps S f s r).2.closed = s.closed := by
  induction r with
  | nil => intro s _; rfl
  | cons n r ih =>
    intro s h
    have hc := @loadMap_closed S f s n
    unfold loadAllMaps at h ⊢
    rcases hm : loadMap S f s n with ⟨o, t⟩
    rw [hm] at h hc
    cases o with
    | none => cases h
    | some i => exact (ih t h).trans (hc rfl)

theorem loadAllProgs_closed (S : CSpec) (f : Nat → Bool) (r : List String) : ∀ s, (loadAllProgs S f s r).1 = true → (loadAllProgs S f s r).2.closed = s.closed := by
  induction r with
  | nil => intro s _; rfl
  | cons n r ih =>
    intro s h
    have hc := @loadProgram_closed S f s n
    unfold loadAllProgs at h ⊢
    split at h
    · cases h
    · split at h
      · rename_i hu; rw [if_pos hu]; exact ih s h
      · rename_i hu; rw [if_neg hu]
        rcases hm : loadProgram S f s n with ⟨o, t⟩
        rw [hm] at h hc
        cases o with
        | none => cases h
        | some i => exact (ih t h).trans (hc rfl)

theorem loadAllVars_closed (S : CSpec) (f : Nat → Bool) (r : List String) : ∀ s, (loadAllVars S f s r).1 = true → (loadAllVars S f s r).2.closed = s.closed := by
  induction r with
  | nil => intro s _; rfl
  | cons n r ih =>
    intro s h
    have hc := loadVariable_closed S f s n
    unfold loadAllVars at h ⊢
    rcases hm : loadVariable S f s n with ⟨o, t⟩
    rw [hm] at h hc
    cases o with
    | false => cases h
    | true => exact (ih t h).trans (hc rfl)

/-- **C49**, `NewCollection`: when it succeeds nothing was closed, so (with `newCollection_owns`) the
collection holds every object that was opened. -/
theorem newCollection_closes_nothing (S : CSpec) (f : Nat → Bool) (o : Orders) (c : Collection) (s : L)
    (h : newCollection S f o = (some c, s)) : s.closed = [] := by
  unfold newCollection at h
  simp only at h
  split at h
  · cases h
  · have c1 := loadAllMaps_closed S f o.maps (L.tick {})
    rcases e1 : loadAllMaps S f (L.tick {}) o.maps with ⟨b, t⟩
    rw [e1] at c1 h
    cases b with
    | false => cases h
    | true =>
      simp only at h
      have c2 := loadAllProgs_closed S f o.progs t
      rcases e2 : loadAllProgs S f t o.progs with ⟨b, u⟩
      rw [e2] at c2 h
      cases b with
      | false => cases h
      | true =>
        simp only at h
        have c3 := loadAllVars_closed S f o.vars u
        rcases e3 : loadAllVars S f u o.vars with ⟨b, v⟩
        rw [e3] at c3 h
        cases b with
        | false => cases h
        | true =>
          simp only at h
          have c4 := populate_closed S f o.populate v
          rcases e4 : populate S f v o.populate with ⟨b, w⟩
          rw [e4] at c4 h
          cases b with
          | false => cases h
          | true =>
            cases h
            exact (c4 rfl).trans ((c3 rfl).trans ((c2 rfl).trans (c1 rfl)))

end Ebpf.Coll
