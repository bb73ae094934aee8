import Verif.Props.CollectionEx

/-!
# C65: loading a collection fails only for a reason
-/
namespace Ebpf.Coll

/-- Every name in the spec names something that can be loaded. -/
structure Loadable (S : CSpec) : Prop where
  refs : ∀ n p, S.progs.lookup n = some p → p.unspecified = false → ∀ r ∈ p.refs, ∃ m, S.maps.lookup r = some m
  progs : ∀ n m, S.maps.lookup n = some m → m.kind = .ofProgs → ∀ k x, (k, Content.object x) ∈ m.contents →
    ∃ p, S.progs.lookup x = some p ∧ p.unspecified = false
  maps : ∀ n m, S.maps.lookup n = some m → m.kind = .ofMaps → ∀ k x, (k, Content.object x) ∈ m.contents →
    ∃ m', S.maps.lookup x = some m'
  vars : ∀ n sec, S.vars.lookup n = some sec → ∃ m, S.maps.lookup sec = some m

/-- Nothing fails. -/
def noFaults : Nat → Bool := fun _ => false

theorem loadMap_total {S : CSpec} (s : L) (n : String) (h : ∃ m, S.maps.lookup n = some m) :
    ∃ i, (loadMap S noFaults s n).1 = some i := by
  obtain ⟨m, hm⟩ := h
  unfold loadMap
  split
  · exact ⟨_, rfl⟩
  · rw [hm]
    simp only [noFaults, Bool.false_eq_true, if_false]
    split
    · exact ⟨_, rfl⟩
    · split <;> exact ⟨_, rfl⟩

theorem loadRefs_total {S : CSpec} (r : List String) (h : ∀ n ∈ r, ∃ m, S.maps.lookup n = some m) : ∀ s : L, (loadRefs S noFaults s r).1 = true := by
  induction r with
  | nil => intro s; rfl
  | cons n r ih =>
    intro s
    obtain ⟨i, hi⟩ := loadMap_total s n (h n (List.mem_cons_self ..))
    unfold loadRefs
    rcases hm : loadMap S noFaults s n with ⟨o, t⟩
    rw [hm] at hi; simp only at hi; subst hi
    exact ih (fun x hx => h x (List.mem_cons_of_mem _ hx)) t

theorem loadProgram_total {S : CSpec} (hS : Loadable S) (s : L) (n : String) (h : ∃ p, S.progs.lookup n = some p ∧ p.unspecified = false) :
    ∃ i, (loadProgram S noFaults s n).1 = some i := by
  obtain ⟨p, hp, hu⟩ := h
  have hr := loadRefs_total p.refs (hS.refs n p hp hu) s
  unfold loadProgram
  split
  · exact ⟨_, rfl⟩
  · rw [hp]
    simp only [hu, Bool.false_eq_true, if_false]
    rcases hm : loadRefs S noFaults s p.refs with ⟨b, t⟩
    rw [hm] at hr; simp only at hr; subst hr
    simp [noFaults]

theorem loadVariable_total {S : CSpec} (hS : Loadable S) (s : L) (n : String) (h : ∃ sec, S.vars.lookup n = some sec) :
    (loadVariable S noFaults s n).1 = true := by
  obtain ⟨sec, hs⟩ := h
  obtain ⟨i, hi⟩ := loadMap_total s sec (hS.vars n sec hs)
  unfold loadVariable
  rw [hs]
  rcases hm : loadMap S noFaults s sec with ⟨o, t⟩
  rw [hm] at hi; simp only at hi; subst hi
  simp [noFaults, hm]

theorem resolve_total {S : CSpec} (hS : Loadable S) (k : Kind) (c : List (Nat × Content))
    (hp : k = .ofProgs → ∀ key x, (key, Content.object x) ∈ c → ∃ p, S.progs.lookup x = some p ∧ p.unspecified = false)
    (hm : k = .ofMaps → ∀ key x, (key, Content.object x) ∈ c → ∃ m, S.maps.lookup x = some m) :
    ∀ s : L, ∃ l, (resolve S noFaults k s c).1 = some l := by
  induction c with
  | nil => intro s; exact ⟨_, rfl⟩
  | cons e r ih =>
    intro s
    have ih := ih (fun hk key x hx => hp hk key x (List.mem_cons_of_mem _ hx)) (fun hk key x hx => hm hk key x (List.mem_cons_of_mem _ hx))
    rcases e with ⟨key, v | n⟩
    · unfold resolve
      obtain ⟨l, hl⟩ := ih s
      rcases hr : resolve S noFaults k s r with ⟨o, t⟩
      rw [hr] at hl; simp only at hl; subst hl
      exact ⟨_, rfl⟩
    · unfold resolve
      cases k with
      | scalar =>
        obtain ⟨l, hl⟩ := ih s
        simp only
        rcases hr : resolve S noFaults .scalar s r with ⟨o, t⟩
        rw [hr] at hl; simp only at hl; subst hl
        exact ⟨_, rfl⟩
      | ofProgs =>
        obtain ⟨i, hi⟩ := loadProgram_total hS s n (hp rfl key n (List.mem_cons_self ..))
        simp only
        rcases hq : loadProgram S noFaults s n with ⟨o, t⟩
        rw [hq] at hi; simp only at hi; subst hi
        obtain ⟨l, hl⟩ := ih t
        simp only [Option.map]
        rcases hr : resolve S noFaults .ofProgs t r with ⟨o, u⟩
        rw [hr] at hl; simp only at hl; subst hl
        exact ⟨_, rfl⟩
      | ofMaps =>
        obtain ⟨i, hi⟩ := loadMap_total s n (hm rfl key n (List.mem_cons_self ..))
        simp only
        rcases hq : loadMap S noFaults s n with ⟨o, t⟩
        rw [hq] at hi; simp only at hi; subst hi
        obtain ⟨l, hl⟩ := ih t
        simp only [Option.map]
        rcases hr : resolve S noFaults .ofMaps t r with ⟨o, u⟩
        rw [hr] at hl; simp only at hl; subst hl
        exact ⟨_, rfl⟩

theorem populate_total {S : CSpec} (hS : Loadable S) (o : List String) : ∀ s : L, Inv s →
    (∀ n ∈ o, ∃ i m, s.maps.lookup n = some i ∧ S.maps.lookup n = some m) → (populate S noFaults s o).1 = true := by
  induction o with
  | nil => intro s _ _; rfl
  | cons n r ih =>
    intro s hs h
    obtain ⟨i, m, hi, hm⟩ := h n (List.mem_cons_self ..)
    have h1 : (populateOne S noFaults s n).1 = true := by
      unfold populateOne
      rw [hi, hm]
      simp only
      split
      · rfl
      · obtain ⟨l, hl⟩ := resolve_total hS m.kind m.contents (fun hk => hS.progs n m hm hk) (fun hk => hS.maps n m hm hk) s
        rcases hr : resolve S noFaults m.kind s m.contents with ⟨o, t⟩
        rw [hr] at hl; simp only at hl; subst hl
        simp [noFaults]
    have hg := populateOne_good S noFaults hs n
    unfold populate
    rcases hq : populateOne S noFaults s n with ⟨b, t⟩
    rw [hq] at h1 hg; simp only at h1; subst h1
    refine ih t hg.inv ?_
    intro x hx
    obtain ⟨i, m, a, b⟩ := h x (List.mem_cons_of_mem _ hx)
    exact ⟨i, m, hg.ext.maps _ _ a, b⟩

/-- The field can be assigned: it has a known type, a good tag, and names something loadable. -/
def FieldOk (S : CSpec) (fl : Field) : Prop :=
  fl.ok = true ∧ match fl.kind with
  | .map => ∃ m, S.maps.lookup fl.name = some m
  | .prog => ∃ p, S.progs.lookup fl.name = some p ∧ p.unspecified = false
  | .var => ∃ sec, S.vars.lookup fl.name = some sec
  | .other => False

theorem assignFields_total {S : CSpec} (hS : Loadable S) (fs : List Field) : ∀ (s : L) (done : List Field),
    (∀ fl ∈ fs, FieldOk S fl) → (fs.map (fun fl => (fl.kind, fl.name))).Nodup →
    (∀ d ∈ done, ∀ fl ∈ fs, (d.kind, d.name) ≠ (fl.kind, fl.name)) → ∃ l, (assignFields S noFaults s done fs).1 = some l := by
  induction fs with
  | nil => intro s done _ _ _; exact ⟨_, rfl⟩
  | cons fl r ih =>
    intro s done hok hnd hd
    rw [List.map_cons, List.nodup_cons] at hnd
    have hfl := hok fl (List.mem_cons_self ..)
    have hno : ¬ done.any (fun d => d.kind = fl.kind && d.name = fl.name) = true := by
      intro h
      rw [List.any_eq_true] at h
      obtain ⟨d, hm, hh⟩ := h
      simp only [Bool.and_eq_true, decide_eq_true_eq] at hh
      exact hd d hm fl (List.mem_cons_self ..) (by rw [hh.1, hh.2])
    have hv : ∃ o, (getValue S noFaults s fl).1 = some o := by
      unfold getValue
      unfold FieldOk at hfl
      rcases hk : fl.kind with _ | _ | _ | _ <;> rw [hk] at hfl <;> simp only at hfl ⊢
      · obtain ⟨i, hi⟩ := loadProgram_total hS s fl.name hfl.2
        exact ⟨some i, by rw [hi]; rfl⟩
      · obtain ⟨i, hi⟩ := loadMap_total s fl.name hfl.2
        exact ⟨some i, by rw [hi]; rfl⟩
      · exact ⟨none, by rw [loadVariable_total hS s fl.name hfl.2]; rfl⟩
      · exact hfl.2.elim
    obtain ⟨o, ho⟩ := hv
    unfold assignFields
    rw [if_neg hno]
    rcases hq : getValue S noFaults s fl with ⟨q, t⟩
    rw [hq] at ho; simp only at ho; subst ho
    simp only [hfl.1]
    obtain ⟨l, hl⟩ := ih t (fl :: done) (fun x hx => hok x (List.mem_cons_of_mem _ hx)) hnd.2 (by
      intro d hdm x hx
      rcases List.mem_cons.1 hdm with rfl | hdm
      · intro e; exact hnd.1 (e ▸ List.mem_map.2 ⟨x, hx, rfl⟩)
      · exact hd d hdm x (List.mem_cons_of_mem _ hx))
    rcases hr : assignFields S noFaults t (fl :: done) r with ⟨q, u⟩
    rw [hr] at hl; simp only at hl; subst hl
    exact ⟨_, rfl⟩

theorem loadAllMaps_total {S : CSpec} (r : List String) (h : ∀ n ∈ r, ∃ m, S.maps.lookup n = some m) : ∀ s : L, (loadAllMaps S noFaults s r).1 = true := by
  induction r with
  | nil => intro s; rfl
  | cons n r ih =>
    intro s
    obtain ⟨i, hi⟩ := loadMap_total s n (h n (List.mem_cons_self ..))
    unfold loadAllMaps
    rcases hm : loadMap S noFaults s n with ⟨o, t⟩
    rw [hm] at hi; simp only at hi; subst hi
    exact ih (fun x hx => h x (List.mem_cons_of_mem _ hx)) t

theorem loadAllProgs_total {S : CSpec} (hS : Loadable S) (r : List String) (h : ∀ n ∈ r, ∃ p, S.progs.lookup n = some p) : ∀ s : L, (loadAllProgs S noFaults s r).1 = true := by
  induction r with
  | nil => intro s; rfl
  | cons n r ih =>
    intro s
    have ih := ih (fun x hx => h x (List.mem_cons_of_mem _ hx))
    obtain ⟨p, hp⟩ := h n (List.mem_cons_self ..)
    unfold loadAllProgs
    rw [hp]
    simp only
    split
    · exact ih s
    · rename_i hu
      obtain ⟨i, hi⟩ := loadProgram_total hS s n ⟨p, hp, by simpa using hu⟩
      rcases hm : loadProgram S noFaults s n with ⟨o, t⟩
      rw [hm] at hi; simp only at hi; subst hi
      exact ih t

theorem loadAllVars_total {S : CSpec} (hS : Loadable S) (r : List String) (h : ∀ n ∈ r, ∃ p, S.vars.lookup n = some p) : ∀ s : L, (loadAllVars S noFaults s r).1 = true := by
  induction r with
  | nil => intro s; rfl
  | cons n r ih =>
    intro s
    have hi := loadVariable_total hS s n (h n (List.mem_cons_self ..))
    unfold loadAllVars
    rcases hm : loadVariable S noFaults s n with ⟨o, t⟩
    rw [hm] at hi; simp only at hi; subst hi
    exact ih (fun x hx => h x (List.mem_cons_of_mem _ hx)) t

/-- **C65** for `NewCollection`: when all names in the spec are defined, the programs in program
arrays have a type, and no operation fails, the call succeeds, in any order of iteration. -/
theorem newCollection_succeeds (S : CSpec) (hS : Loadable S) (o : Orders)
    (hmaps : ∀ n ∈ o.maps, ∃ m, S.maps.lookup n = some m) (hprogs : ∀ n ∈ o.progs, ∃ p, S.progs.lookup n = some p)
    (hvars : ∀ n ∈ o.vars, ∃ v, S.vars.lookup n = some v) (hpop : ∀ n ∈ o.populate, n ∈ o.maps) :
    ∃ c s, newCollection S noFaults o = (some c, s) := by
  unfold newCollection
  have hi0 : Inv (L.tick {}) := inv_tick inv_empty
  rw [if_neg (by simp [noFaults])]
  have t1 := loadAllMaps_total (S := S) o.maps hmaps (L.tick {})
  have h1 := loadAllMaps_good S noFaults o.maps hi0
  have p1 := loadAllMaps_pop (S := S) (V := []) noFaults o.maps hi0 pop_empty
  rcases e1 : loadAllMaps S noFaults (L.tick {}) o.maps with ⟨b, t⟩
  rw [e1] at t1 h1 p1; simp only at t1; subst t1
  have t2 := loadAllProgs_total hS o.progs hprogs t
  have h2 := loadAllProgs_good S noFaults o.progs h1.inv
  simp only [e1]
  rcases e2 : loadAllProgs S noFaults t o.progs with ⟨b, u⟩
  rw [e2] at t2 h2; simp only at t2; subst t2
  have t3 := loadAllVars_total hS o.vars hvars u
  have h3 := loadAllVars_good S noFaults o.vars h2.inv
  simp only
  rcases e3 : loadAllVars S noFaults u o.vars with ⟨b, v⟩
  rw [e3] at t3 h3; simp only at t3; subst t3
  have t4 := populate_total hS o.populate v h3.inv (by
    intro n hn
    obtain ⟨i, hi⟩ := p1.2 rfl n (hpop n hn)
    obtain ⟨m, hm⟩ := hmaps n (hpop n hn)
    exact ⟨i, m, h3.ext.maps _ _ (h2.ext.maps _ _ hi), hm⟩)
  simp only
  rcases e4 : populate S noFaults v o.populate with ⟨b, w⟩
  rw [e4] at t4; simp only at t4; subst t4
  exact ⟨_, _, rfl⟩

/-- **C65** for `LoadAndAssign`: a program array with contents that was loaded is always handed to the
caller when the call succeeds, whatever fails. -/
theorem loadAndAssign_progArrays (S : CSpec) (f : Nat → Bool) (fields : List Field) (order : List String)
    (ids : List Nat) (s : L) (h : loadAndAssign S f fields order = (some ids, s)) (n : String) (id : Nat) (m : MapS)
    (hl : s.mapLog.lookup n = some id) (hm : S.maps.lookup n = some m) (hk : m.kind = .ofProgs) (hc : m.contents ≠ []) :
    ∃ fl ∈ fields, fl.kind = .map ∧ fl.name = n := by
  unfold loadAndAssign at h
  simp only at h
  split at h
  · cases h
  · have ha := (assignFields_good S f fields [] (inv_tick inv_empty)).1
    rcases hA : assignFields S f (L.tick {}) [] fields with ⟨o, t⟩
    rw [hA] at ha h
    cases o with
    | none => cases h
    | some ids' =>
      simp only at h
      have hg := populate_good S f order ha.inv
      rcases hP : populate S f t order with ⟨b, u⟩
      rw [hP] at hg h
      cases b with
      | false => cases h
      | true =>
        simp only at h
        split at h
        · cases h
        · rename_i hb
          cases h
          have em : (closeRest (release u (namesOf .map fields) (namesOf .prog fields))).mapLog = u.maps := hg.inv.mlog
          rw [em] at hl
          by_cases hin : n ∈ namesOf .map fields
          · simp only [namesOf, List.mem_map, List.mem_filter, decide_eq_true_eq] at hin
            obtain ⟨fl, ⟨h1, h2⟩, h3⟩ := hin
            exact ⟨fl, h1, h2, h3⟩
          · exfalso
            apply hb
            unfold badProgArray
            rw [List.any_eq_true]
            have hmem : ∀ (l : List (String × Nat)), l.lookup n = some id → (n, id) ∈ l := by
              intro l h
              induction l with
              | nil => cases h
              | cons e r ih =>
                rcases e with ⟨k, v⟩
                rcases lookup_cons_or h with ⟨rfl, rfl⟩ | ⟨-, h⟩
                · exact List.mem_cons_self ..
                · exact List.mem_cons_of_mem _ (ih h)
            refine ⟨(n, id), hmem _ hl, ?_⟩
            simp only [hm]
            simp [hk, hin, hc]

/-- **C65** for `LoadAndAssign`: when all names in the spec and in the fields are defined, no two fields
ask for the same object, no operation fails, and every program array with contents is a field, the
call succeeds, whichever of the loaded maps the loop visits. -/
theorem loadAndAssign_succeeds (S : CSpec) (hS : Loadable S) (fields : List Field) (order : List String)
    (hok : ∀ fl ∈ fields, FieldOk S fl) (hnd : (fields.map (fun fl => (fl.kind, fl.name))).Nodup)
    (hord : ∀ n ∈ order, ∃ i, (beforePopulate S noFaults fields).maps.lookup n = some i)
    (hprog : ∀ n m, S.maps.lookup n = some m → m.kind = .ofProgs → m.contents ≠ [] → ∃ fl ∈ fields, fl.kind = .map ∧ fl.name = n) :
    ∃ ids s, loadAndAssign S noFaults fields order = (some ids, s) := by
  unfold loadAndAssign
  have hi0 : Inv (L.tick {}) := inv_tick inv_empty
  rw [if_neg (by simp [noFaults])]
  obtain ⟨l, hl⟩ := assignFields_total hS fields (L.tick {}) [] hok hnd (fun _ h => (by cases h))
  have ha := (assignFields_good S noFaults fields [] hi0).1
  have hp := assignFields_pop (S := S) (V := []) noFaults fields [] hi0 pop_empty
  have hb : beforePopulate S noFaults fields = (assignFields S noFaults (L.tick {}) [] fields).2 := rfl
  rw [hb] at hord
  rcases hA : assignFields S noFaults (L.tick {}) [] fields with ⟨o, t⟩
  rw [hA] at hl ha hp hord; simp only at hl; subst hl
  simp only [hA]
  have hpt := populate_total hS order t ha.inv (by
    intro n hn
    obtain ⟨i, hi⟩ := hord n hn
    obtain ⟨m, hm⟩ := hp.known n i hi
    exact ⟨i, m, hi, hm⟩)
  rcases hP : populate S noFaults t order with ⟨b, u⟩
  rw [hP] at hpt; simp only at hpt; subst hpt
  simp only
  rw [if_neg]
  · exact ⟨_, _, rfl⟩
  · intro hbad
    unfold badProgArray at hbad
    rw [List.any_eq_true] at hbad
    obtain ⟨⟨n, i⟩, -, hh⟩ := hbad
    cases hm : S.maps.lookup n with
    | none => simp [hm] at hh
    | some m =>
      simp only [hm, Bool.and_eq_true, decide_eq_true_eq, bne_iff_ne] at hh
      obtain ⟨⟨hk, hna⟩, hc⟩ := hh
      obtain ⟨fl, h1, h2, h3⟩ := hprog n m hm hk hc
      have : n ∈ namesOf .map fields := by
        simp only [namesOf, List.mem_map, List.mem_filter, decide_eq_true_eq]
        exact ⟨fl, ⟨h1, h2⟩, h3⟩
      simp [this] at hna

/-- The example is loadable. -/
theorem exSpec_loadable : Loadable exSpec := by
  have look : ∀ {α} (l : List (String × α)) n x, l.lookup n = some x → (n, x) ∈ l := by
    intro α l n x h
    induction l with
    | nil => cases h
    | cons e r ih =>
      rcases e with ⟨k, v⟩
      by_cases hk : n = k
      · subst hk; rw [List.lookup_cons_self] at h; cases h; exact List.mem_cons_self ..
      · have h2 : (n == k) = false := by simpa using hk
        simp only [List.lookup_cons, h2] at h
        exact List.mem_cons_of_mem _ (ih h)
  constructor
  · intro n p h hu r hr
    have := look _ _ _ h
    simp only [exSpec, List.mem_cons, List.not_mem_nil, or_false, Prod.mk.injEq] at this
    obtain ⟨rfl, rfl⟩ := this
    simp only [List.mem_cons, List.not_mem_nil, or_false] at hr
    rcases hr with rfl | rfl <;> exact Option.isSome_iff_exists.1 (by decide +kernel)
  · intro n m h hk k x hx
    have := look _ _ _ h
    simp only [exSpec, List.mem_cons, List.not_mem_nil, or_false, Prod.mk.injEq] at this
    rcases this with ⟨rfl, rfl⟩ | ⟨rfl, rfl⟩ | ⟨rfl, rfl⟩ | ⟨rfl, rfl⟩ <;> simp at hk hx
    obtain ⟨rfl, rfl⟩ := hx
    exact ⟨{ refs := ["H", ".rodata"] }, by decide +kernel, rfl⟩
  · intro n m h hk k x hx
    have := look _ _ _ h
    simp only [exSpec, List.mem_cons, List.not_mem_nil, or_false, Prod.mk.injEq] at this
    rcases this with ⟨rfl, rfl⟩ | ⟨rfl, rfl⟩ | ⟨rfl, rfl⟩ | ⟨rfl, rfl⟩ <;> simp at hk hx
    obtain ⟨rfl, rfl⟩ := hx
    exact ⟨{ contents := [(1, .value 5)] }, by decide +kernel⟩
  · intro n sec h
    have := look _ _ _ h
    simp only [exSpec, List.mem_cons, List.not_mem_nil, or_false, Prod.mk.injEq] at this
    obtain ⟨rfl, rfl⟩ := this
    exact ⟨{ contents := [(0, .value 9)], constant := true }, by decide +kernel⟩

/-- Not assigning `A` is refused once its program is used: here the fields ask for nothing but a
variable, and `A` is not loaded, so the call succeeds; with a program that refers to `A` it fails. -/
example :
    (loadAndAssign exSpec noFaults [⟨.var, "v", true⟩] [".rodata"]).1 = some [] ∧
    (loadAndAssign { exSpec with progs := [("P", { refs := ["A"] })] } noFaults [⟨.prog, "P", true⟩] ["A"]).1 = none ∧
    (loadAndAssign { exSpec with progs := [("P", { refs := ["A"] })] } noFaults [⟨.prog, "P", true⟩] ["A"]).2.closed = [0, 1] := by
  decide +kernel

end Ebpf.Coll
