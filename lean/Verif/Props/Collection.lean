import Verif.Model.Collection

/-!
# C49: loading a collection owns every object exactly once

`count x` of a list of object numbers says how often the object occurs in it.
-/
namespace Ebpf.Coll

/-- Ownership: every opened object is held under exactly one name or was closed, once. -/
structure Inv (s : L) : Prop where
  count : ∀ x, (s.maps.map (·.2)).count x + (s.progs.map (·.2)).count x + s.closed.count x = s.opened.count x
  le : ∀ x, s.opened.count x ≤ 1
  fresh : ∀ x, s.next ≤ x → s.opened.count x = 0
  mkeys : (s.maps.map (·.1)).Nodup
  pkeys : (s.progs.map (·.1)).Nodup
  mlog : s.mapLog = s.maps
  plog : s.progLog = s.progs

theorem lookup_none_iff {α} (l : List (String × α)) (n : String) : l.lookup n = none ↔ n ∉ l.map (·.1) := by
  induction l with
  | nil => simp
  | cons e r ih =>
    rcases e with ⟨k, v⟩
    by_cases h : n = k
    · subst h; simp
    · have h' : (n == k) = false := by simpa using h
      simp only [List.lookup, h', ih, List.map_cons, List.mem_cons, not_or]
      exact ⟨fun x => ⟨h, x⟩, fun x => x.2⟩

theorem inv_empty : Inv {} := by
  constructor <;> simp

theorem inv_tick {s : L} (h : Inv s) : Inv s.tick := by
  rcases h with ⟨h1, h2, h3, h4, h5, h6, h7⟩
  exact ⟨h1, h2, h3, h4, h5, h6, h7⟩

theorem inv_fill {s : L} (h : Inv s) (id c k) : Inv (s.fill id c k) := by
  rcases h with ⟨h1, h2, h3, h4, h5, h6, h7⟩
  exact ⟨h1, h2, h3, h4, h5, h6, h7⟩

theorem count_cons_ite (x y : Nat) (l : List Nat) : (y :: l).count x = l.count x + if y = x then 1 else 0 := by
  rw [List.count_cons]; simp

theorem inv_addMap {s : L} (h : Inv s) {name} (hn : s.maps.lookup name = none) : Inv (s.openObj.addMap name s.next) := by
  rcases h with ⟨h1, h2, h3, h4, h5, h6, h7⟩
  refine ⟨?_, ?_, ?_, ?_, h5, ?_, h7⟩
  · intro x; simp only [L.openObj, L.addMap, List.map_cons, count_cons_ite]; have := h1 x; omega
  · intro x; simp only [L.openObj, L.addMap, count_cons_ite]; have := h2 x; have := h3 s.next (Nat.le_refl _)
    split
    · rename_i e; subst e; omega
    · omega
  · intro x hx; simp only [L.openObj, L.addMap, count_cons_ite] at *; have := h3 x (by omega); rw [if_neg (by omega)]; omega
  · simp only [L.openObj, L.addMap, List.map_cons, List.nodup_cons]; exact ⟨(lookup_none_iff _ _).1 hn, h4⟩
  · simp only [L.openObj, L.addMap, h6]

theorem inv_addProg {s : L} (h : Inv s) {name} (hn : s.progs.lookup name = none) : Inv (s.openObj.addProg name s.next) := by
  rcases h with ⟨h1, h2, h3, h4, h5, h6, h7⟩
  refine ⟨?_, ?_, ?_, h4, ?_, h6, ?_⟩
  · intro x; simp only [L.openObj, L.addProg, List.map_cons, count_cons_ite]; have := h1 x; omega
  · intro x; simp only [L.openObj, L.addProg, count_cons_ite]; have := h2 x; have := h3 s.next (Nat.le_refl _)
    split
    · rename_i e; subst e; omega
    · omega
  · intro x hx; simp only [L.openObj, L.addProg, count_cons_ite] at *; have := h3 x (by omega); rw [if_neg (by omega)]; omega
  · simp only [L.openObj, L.addProg, List.map_cons, List.nodup_cons]; exact ⟨(lookup_none_iff _ _).1 hn, h5⟩
  · simp only [L.openObj, L.addProg, h7]

theorem inv_openClose {s : L} (h : Inv s) : Inv (s.openObj.closeObj s.next) := by
  rcases h with ⟨h1, h2, h3, h4, h5, h6, h7⟩
  refine ⟨?_, ?_, ?_, h4, h5, h6, h7⟩
  · intro x; simp only [L.openObj, L.closeObj, count_cons_ite]; have := h1 x; omega
  · intro x; simp only [L.openObj, L.closeObj, count_cons_ite]; have := h2 x; have := h3 s.next (Nat.le_refl _)
    split
    · rename_i e; subst e; omega
    · omega
  · intro x hx; simp only [L.openObj, L.closeObj, count_cons_ite] at *; have := h3 x (by omega); rw [if_neg (by omega)]; omega

/-- What a step of the loader preserves: names keep their objects; nothing is unwritten. -/
structure Ext (s t : L) : Prop where
  maps : ∀ n id, s.maps.lookup n = some id → t.maps.lookup n = some id
  progs : ∀ n id, s.progs.lookup n = some id → t.progs.lookup n = some id
  next : s.next ≤ t.next

theorem Ext.refl (s : L) : Ext s s := ⟨fun _ _ h => h, fun _ _ h => h, Nat.le_refl _⟩
theorem Ext.trans {s t u : L} (a : Ext s t) (b : Ext t u) : Ext s u :=
  ⟨fun n i h => b.maps n i (a.maps n i h), fun n i h => b.progs n i (a.progs n i h), Nat.le_trans a.next b.next⟩

theorem lookup_cons_ext {α} {l : List (String × α)} {name : String} (hn : l.lookup name = none) (v : α) :
    ∀ n id, l.lookup n = some id → ((name, v) :: l).lookup n = some id := by
  intro n id h
  by_cases e : n = name
  · subst e; rw [hn] at h; cases h
  · have : (n == name) = false := by simpa using e
    simp only [List.lookup, this, h]

/-- Every step keeps the invariant. -/
structure Good (s t : L) : Prop where
  inv : Inv t
  ext : Ext s t

theorem Good.trans {s t u : L} (a : Good s t) (b : Good t u) : Good s u := ⟨b.inv, a.ext.trans b.ext⟩

variable (S : CSpec) (f : Nat → Bool)

theorem loadMap_good {s : L} (h : Inv s) (name : String) : Good s (loadMap S f s name).2 ∧
    ∀ id, (loadMap S f s name).1 = some id → (loadMap S f s name).2.maps.lookup name = some id := by
  unfold loadMap
  split
  · rename_i id hid; exact ⟨⟨h, Ext.refl s⟩, fun i e => by cases e; exact hid⟩
  · rename_i hn
    split
    · exact ⟨⟨h, Ext.refl s⟩, fun i e => by cases e⟩
    · rename_i m hm
      split
      · exact ⟨⟨inv_tick h, ⟨fun _ _ h => h, fun _ _ h => h, Nat.le_refl _⟩⟩, fun i e => by cases e⟩
      · have ha := inv_addMap (inv_tick h) (name := name) hn
        have hx : Ext s ((s.tick.openObj).addMap name s.next) :=
          ⟨lookup_cons_ext hn _, fun _ _ h => h, by simp [L.addMap, L.openObj, L.tick]⟩
        have hl : ((s.tick.openObj).addMap name s.next).maps.lookup name = some s.next := by simp [L.addMap]
        simp only
        split
        · exact ⟨⟨ha, hx⟩, fun i e => by cases e; exact hl⟩
        · split
          · split
            · exact ⟨⟨inv_openClose (s := s.tick.tick) (inv_tick (inv_tick h)),
                ⟨fun _ _ h => h, fun _ _ h => h, by simp [L.closeObj, L.openObj, L.tick]⟩⟩, fun i e => by cases e⟩
            · exact ⟨⟨inv_fill (inv_tick ha) _ _ _, ⟨hx.maps, hx.progs, hx.next⟩⟩, fun i e => by cases e; exact hl⟩
          · exact ⟨⟨ha, hx⟩, fun i e => by cases e; exact hl⟩

theorem loadRefs_good (r : List String) : ∀ {s : L}, Inv s → Good s (loadRefs S f s r).2 := by
  induction r with
  | nil => intro s h; exact ⟨h, Ext.refl s⟩
  | cons n r ih =>
    intro s h
    have hg := (loadMap_good S f h n).1
    unfold loadRefs
    rcases hm : loadMap S f s n with ⟨o, t⟩
    rw [hm] at hg
    cases o with
    | none => exact hg
    | some i => exact hg.trans (ih hg.inv)

theorem loadProgram_good {s : L} (h : Inv s) (name : String) : Good s (loadProgram S f s name).2 ∧
    ∀ id, (loadProgram S f s name).1 = some id → (loadProgram S f s name).2.progs.lookup name = some id := by
  have hp0 : ∀ r (s : L), (loadRefs S f s r).2.progs = s.progs := by
    intro r
    induction r with
    | nil => intro s; rfl
    | cons n r ih =>
      intro s
      have hm : (loadMap S f s n).2.progs = s.progs := by
        unfold loadMap
        repeat' (first | rfl | split | simp only)
      unfold loadRefs
      rcases hm' : loadMap S f s n with ⟨o, t⟩
      rw [hm'] at hm
      cases o with
      | none => exact hm
      | some i => exact (ih t).trans hm
  unfold loadProgram
  split
  · rename_i id hid; exact ⟨⟨h, Ext.refl s⟩, fun i e => by cases e; exact hid⟩
  · rename_i hn
    split
    · exact ⟨⟨h, Ext.refl s⟩, fun i e => by cases e⟩
    · rename_i p hp
      split
      · exact ⟨⟨h, Ext.refl s⟩, fun i e => by cases e⟩
      · have hg := loadRefs_good S f p.refs h
        have hq := hp0 p.refs s
        rcases hr : loadRefs S f s p.refs with ⟨b, t⟩
        rw [hr] at hg hq
        cases b with
        | false => exact ⟨hg, fun i e => by cases e⟩
        | true =>
          simp only
          split
          · exact ⟨hg.trans ⟨inv_tick hg.inv, ⟨fun _ _ h => h, fun _ _ h => h, Nat.le_refl _⟩⟩, fun i e => by cases e⟩
          · have hn' : t.progs.lookup name = none := by rw [show t.progs = s.progs from hq]; exact hn
            refine ⟨hg.trans ⟨inv_addProg (inv_tick hg.inv) hn', ⟨fun _ _ h => h, lookup_cons_ext hn' _, ?_⟩⟩, ?_⟩
            · simp [L.addProg, L.openObj, L.tick]
            · intro i e; cases e; simp [L.addProg, L.tick]

theorem loadVariable_good {s : L} (h : Inv s) (name : String) : Good s (loadVariable S f s name).2 := by
  unfold loadVariable
  split
  · exact ⟨h, Ext.refl s⟩
  · rename_i sec hs
    have hg := (loadMap_good S f h sec).1
    rcases hm : loadMap S f s sec with ⟨o, t⟩
    rw [hm] at hg
    cases o with
    | none => exact hg
    | some i =>
      simp only
      split <;> exact hg.trans ⟨inv_tick hg.inv, ⟨fun _ _ h => h, fun _ _ h => h, Nat.le_refl _⟩⟩

theorem resolve_good (k : Kind) (c : List (Nat × Content)) : ∀ {s : L}, Inv s → Good s (resolve S f k s c).2 := by
  induction c with
  | nil => intro s h; exact ⟨h, Ext.refl s⟩
  | cons e r ih =>
    intro s h
    rcases e with ⟨key, v | n⟩
    · have hg := ih h
      unfold resolve
      rcases hr : resolve S f k s r with ⟨o, t⟩
      rw [hr] at hg
      cases o <;> exact hg
    · unfold resolve
      cases k with
      | scalar =>
        have hg := ih h
        simp only
        rcases hr : resolve S f .scalar s r with ⟨o, t⟩
        rw [hr] at hg
        cases o <;> exact hg
      | ofProgs =>
        have hg := (loadProgram_good S f h n).1
        simp only
        rcases hm : loadProgram S f s n with ⟨o, t⟩
        rw [hm] at hg
        cases o with
        | none => exact hg
        | some i =>
          have hg' := ih hg.inv
          simp only [Option.map]
          rcases hr : resolve S f .ofProgs t r with ⟨o, u⟩
          rw [hr] at hg'
          cases o <;> exact hg.trans hg'
      | ofMaps =>
        have hg := (loadMap_good S f h n).1
        simp only
        rcases hm : loadMap S f s n with ⟨o, t⟩
        rw [hm] at hg
        cases o with
        | none => exact hg
        | some i =>
          have hg' := ih hg.inv
          simp only [Option.map]
          rcases hr : resolve S f .ofMaps t r with ⟨o, u⟩
          rw [hr] at hg'
          cases o <;> exact hg.trans hg'

theorem populateOne_good {s : L} (h : Inv s) (name : String) : Good s (populateOne S f s name).2 := by
  unfold populateOne
  split
  · rename_i id m _ _
    split
    · exact ⟨h, Ext.refl s⟩
    · have hg := resolve_good S f m.kind m.contents h
      rcases hr : resolve S f m.kind s m.contents with ⟨o, t⟩
      rw [hr] at hg
      cases o with
      | none => exact hg
      | some c =>
        simp only
        split
        · exact hg.trans ⟨inv_tick hg.inv, ⟨fun _ _ h => h, fun _ _ h => h, Nat.le_refl _⟩⟩
        · exact hg.trans ⟨inv_fill (inv_tick hg.inv) _ _ _, ⟨fun _ _ h => h, fun _ _ h => h, Nat.le_refl _⟩⟩
  · exact ⟨h, Ext.refl s⟩

theorem populate_good (o : List String) : ∀ {s : L}, Inv s → Good s (populate S f s o).2 := by
  induction o with
  | nil => intro s h; exact ⟨h, Ext.refl s⟩
  | cons n r ih =>
    intro s h
    have hg := populateOne_good S f h n
    unfold populate
    rcases hm : populateOne S f s n with ⟨b, t⟩
    rw [hm] at hg
    cases b with
    | false => exact hg
    | true => exact hg.trans (ih hg.inv)

theorem loadAllMaps_good (o : List String) : ∀ {s : L}, Inv s → Good s (loadAllMaps S f s o).2 := by
  induction o with
  | nil => intro s h; exact ⟨h, Ext.refl s⟩
  | cons n r ih =>
    intro s h
    have hg := (loadMap_good S f h n).1
    unfold loadAllMaps
    rcases hm : loadMap S f s n with ⟨b, t⟩
    rw [hm] at hg
    cases b with
    | none => exact hg
    | some i => exact hg.trans (ih hg.inv)

theorem loadAllProgs_good (o : List String) : ∀ {s : L}, Inv s → Good s (loadAllProgs S f s o).2 := by
  induction o with
  | nil => intro s h; exact ⟨h, Ext.refl s⟩
  | cons n r ih =>
    intro s h
    unfold loadAllProgs
    split
    · exact ⟨h, Ext.refl s⟩
    · split
      · exact ih h
      · have hg := (loadProgram_good S f h n).1
        rcases hm : loadProgram S f s n with ⟨b, t⟩
        rw [hm] at hg
        cases b with
        | none => exact hg
        | some i => exact hg.trans (ih hg.inv)

theorem loadAllVars_good (o : List String) : ∀ {s : L}, Inv s → Good s (loadAllVars S f s o).2 := by
  induction o with
  | nil => intro s h; exact ⟨h, Ext.refl s⟩
  | cons n r ih =>
    intro s h
    have hg := loadVariable_good S f h n
    unfold loadAllVars
    rcases hm : loadVariable S f s n with ⟨b, t⟩
    rw [hm] at hg
    cases b with
    | false => exact hg
    | true => exact hg.trans (ih hg.inv)

/-- The objects given to the fields: those loaded under the names of the fields. -/
theorem assignFields_good (fs : List Field) : ∀ {s : L} (done : List Field), Inv s →
    Good s (assignFields S f s done fs).2 ∧
    ∀ ids, (assignFields S f s done fs).1 = some ids →
      (∀ x, ids.count x =
        ((namesOf .map fs).filterMap (fun n => (assignFields S f s done fs).2.maps.lookup n)).count x +
        ((namesOf .prog fs).filterMap (fun n => (assignFields S f s done fs).2.progs.lookup n)).count x) ∧
      (namesOf .map fs).Nodup ∧ (namesOf .prog fs).Nodup ∧
      (∀ n ∈ namesOf .map fs, (∀ d ∈ done, d.kind = .map → d.name ≠ n)) ∧
      (∀ n ∈ namesOf .prog fs, (∀ d ∈ done, d.kind = .prog → d.name ≠ n)) := by
  induction fs with
  | nil =>
    intro s done h
    refine ⟨⟨h, Ext.refl s⟩, fun ids e => ?_⟩
    simp only [assignFields, Option.some.injEq] at e
    subst e
    exact ⟨fun x => by simp [namesOf], List.nodup_nil, List.nodup_nil, fun n hn => (by cases hn), fun n hn => (by cases hn)⟩
  | cons fl r ih =>
    intro s done h
    by_cases hd : done.any (fun d => d.kind = fl.kind && d.name = fl.name) = true
    · have he : assignFields S f s done (fl :: r) = (none, s) := by unfold assignFields; rw [if_pos hd]
      rw [he]; exact ⟨⟨h, Ext.refl s⟩, fun ids e => by cases e⟩
    · have hd' : ∀ d ∈ done, d.kind = fl.kind → d.name ≠ fl.name := by
        intro d hm hk hn
        apply hd; rw [List.any_eq_true]; exact ⟨d, hm, by simp [hk, hn]⟩
      have hg : Good s (getValue S f s fl).2 ∧ ∀ o, (getValue S f s fl).1 = some o →
          (fl.kind = .map → ∃ i, o = some i ∧ (getValue S f s fl).2.maps.lookup fl.name = some i) ∧
          (fl.kind = .prog → ∃ i, o = some i ∧ (getValue S f s fl).2.progs.lookup fl.name = some i) ∧
          (fl.kind ≠ .map → fl.kind ≠ .prog → o = none) := by
        unfold getValue
        rcases hk : fl.kind with _ | _ | _ | _
        · have := loadProgram_good S f h fl.name
          rcases hm : loadProgram S f s fl.name with ⟨b, t⟩
          rw [hm] at this
          refine ⟨this.1, fun o e => ?_⟩
          cases b with
          | none => cases e
          | some i => cases e; exact ⟨fun x => (by cases x), fun _ => ⟨i, rfl, this.2 i rfl⟩, fun _ x => absurd rfl x⟩
        · have := loadMap_good S f h fl.name
          rcases hm : loadMap S f s fl.name with ⟨b, t⟩
          rw [hm] at this
          refine ⟨this.1, fun o e => ?_⟩
          cases b with
          | none => cases e
          | some i => cases e; exact ⟨fun _ => ⟨i, rfl, this.2 i rfl⟩, fun x => (by cases x), fun x => absurd rfl x⟩
        · have := loadVariable_good S f h fl.name
          rcases hm : loadVariable S f s fl.name with ⟨b, t⟩
          rw [hm] at this
          refine ⟨this, fun o e => ?_⟩
          cases b with
          | false => cases e
          | true => cases e; exact ⟨fun x => (by cases x), fun x => (by cases x), fun _ _ => rfl⟩
        · exact ⟨⟨h, Ext.refl s⟩, fun o e => by cases e⟩
      rcases hv : getValue S f s fl with ⟨o, t⟩
      rw [hv] at hg
      cases o with
      | none =>
        have he : assignFields S f s done (fl :: r) = (none, t) := by unfold assignFields; rw [if_neg hd, hv]
        rw [he]; exact ⟨hg.1, fun ids e => by cases e⟩
      | some o =>
        by_cases hok : fl.ok = true
        · have hr := ih (fl :: done) hg.1.inv
          rcases ha : assignFields S f t (fl :: done) r with ⟨q, u⟩
          rw [ha] at hr
          cases q with
          | none =>
            have he : assignFields S f s done (fl :: r) = (none, u) := by
              unfold assignFields; rw [if_neg hd, hv]; simp only [hok, ha]; rfl
            rw [he]; exact ⟨hg.1.trans hr.1, fun ids e => by cases e⟩
          | some ids =>
            have he : assignFields S f s done (fl :: r) = (some (o.toList ++ ids), u) := by
              unfold assignFields; rw [if_neg hd, hv]; simp only [hok, ha]; rfl
            rw [he]
            refine ⟨hg.1.trans hr.1, fun l e => ?_⟩
            cases e
            obtain ⟨hc, hnm, hnp, hdm, hdp⟩ := hr.2 ids rfl
            obtain ⟨gm, gp, go⟩ := hg.2 o rfl
            rcases hk : fl.kind with _ | _ | _ | _
            · obtain ⟨i, rfl, hi⟩ := gp hk
              have hi' := hr.1.ext.progs _ _ hi
              have e1 : namesOf .prog (fl :: r) = fl.name :: namesOf .prog r := by simp [namesOf, hk]
              have e2 : namesOf .map (fl :: r) = namesOf .map r := by simp [namesOf, hk]
              rw [e1, e2]
              refine ⟨fun x => ?_, hnm, ?_, fun n hn d hd => hdm n hn d (List.mem_cons_of_mem _ hd), ?_⟩
              · simp only [Option.toList, List.cons_append, List.nil_append, List.filterMap_cons, hi', count_cons_ite]
                have := hc x; simp only at this; omega
              · exact List.nodup_cons.2 ⟨fun hn => hdp _ hn fl (List.mem_cons_self ..) hk rfl, hnp⟩
              · intro n hn d hm hdk
                rcases List.mem_cons.1 hn with rfl | hn
                · exact hd' d hm (hdk.trans hk.symm)
                · exact hdp n hn d (List.mem_cons_of_mem _ hm) hdk
            · obtain ⟨i, rfl, hi⟩ := gm hk
              have hi' := hr.1.ext.maps _ _ hi
              have e1 : namesOf .map (fl :: r) = fl.name :: namesOf .map r := by simp [namesOf, hk]
              have e2 : namesOf .prog (fl :: r) = namesOf .prog r := by simp [namesOf, hk]
              rw [e1, e2]
              refine ⟨fun x => ?_, ?_, hnp, ?_, fun n hn d hd => hdp n hn d (List.mem_cons_of_mem _ hd)⟩
              · simp only [Option.toList, List.cons_append, List.nil_append, List.filterMap_cons, hi', count_cons_ite]
                have := hc x; simp only at this; omega
              · exact List.nodup_cons.2 ⟨fun hn => hdm _ hn fl (List.mem_cons_self ..) hk rfl, hnm⟩
              · intro n hn d hm hdk
                rcases List.mem_cons.1 hn with rfl | hn
                · exact hd' d hm (hdk.trans hk.symm)
                · exact hdm n hn d (List.mem_cons_of_mem _ hm) hdk
            all_goals
              have e1 : namesOf .prog (fl :: r) = namesOf .prog r := by simp [namesOf, hk]
              have e2 : namesOf .map (fl :: r) = namesOf .map r := by simp [namesOf, hk]
              rw [e1, e2]
              rw [go (by rw [hk]; exact fun x => by cases x) (by rw [hk]; exact fun x => by cases x)]
              exact ⟨hc, hnm, hnp, fun n hn d hd => hdm n hn d (List.mem_cons_of_mem _ hd), fun n hn d hd => hdp n hn d (List.mem_cons_of_mem _ hd)⟩
        · have he : assignFields S f s done (fl :: r) = (none, t) := by
            unfold assignFields; rw [if_neg hd, hv]; simp [hok]
          rw [he]; exact ⟨hg.1, fun ids e => by cases e⟩

theorem inv_closeRest {s : L} (h : Inv s) : (∀ x, (closeRest s).closed.count x = (closeRest s).opened.count x) ∧
    (∀ x, (closeRest s).closed.count x ≤ 1) := by
  have : ∀ x, (closeRest s).closed.count x = (closeRest s).opened.count x := by
    intro x; simp only [closeRest, List.count_append]; exact h.count x
  exact ⟨this, fun x => by rw [this]; exact h.le x⟩

/-- Removing names from an association list and looking the names up in it are complementary. -/
theorem count_filter (l : List (String × Nat)) (hl : (l.map (·.1)).Nodup) (x : Nat) : ∀ ns : List String, ns.Nodup →
    ((l.filter (fun e => !ns.contains e.1)).map (·.2)).count x + (ns.filterMap (fun n => l.lookup n)).count x =
      (l.map (·.2)).count x := by
  induction l with
  | nil => intro ns _; have : ns.filterMap (fun _ => (none : Option Nat)) = [] := by simp
           simp [List.lookup, this]
  | cons e r ih =>
    intro ns hns
    rcases e with ⟨k, v⟩
    simp only [List.map_cons, List.nodup_cons] at hl
    have hr := ih hl.2
    by_cases hk : k ∈ ns
    · have hf : ((k, v) :: r).filter (fun e => !ns.contains e.1) = r.filter (fun e => !ns.contains e.1) := by
        rw [List.filter_cons]; simp [hk]
      rw [hf]
      have hc : ∀ ns : List String, ns.Nodup → k ∈ ns → (ns.filterMap (fun n => ((k, v) :: r).lookup n)).count x =
          (ns.filterMap (fun n => r.lookup n)).count x + if v = x then 1 else 0 := by
        intro ns
        induction ns with
        | nil => intro _ h; cases h
        | cons n t iht =>
          intro hnd hm
          rw [List.nodup_cons] at hnd
          by_cases hnk : n = k
          · subst hnk
            have h1 : (t.filterMap (fun m => ((n, v) :: r).lookup m)) = t.filterMap (fun m => r.lookup m) := by
              have : ∀ t : List String, n ∉ t → (t.filterMap (fun m => ((n, v) :: r).lookup m)) = t.filterMap (fun m => r.lookup m) := by
                intro t
                induction t with
                | nil => intro _; rfl
                | cons a t iha =>
                  intro ha
                  have h2 : (a == n) = false := by
                    simp only [List.mem_cons, not_or] at ha; simpa using fun h => ha.1 h.symm
                  have h3 := iha (fun h => ha (List.mem_cons_of_mem _ h))
                  simp only [List.filterMap_cons, List.lookup_cons, h2] at h3 ⊢
                  rw [h3]
              exact this t hnd.1
            have h2 : r.lookup n = none := (lookup_none_iff r n).2 hl.1
            rw [List.filterMap_cons, List.filterMap_cons, h1, h2, List.lookup_cons_self]
            simp only [count_cons_ite]
          · have h2 : (n == k) = false := by simpa using hnk
            have h3 := iht hnd.2 (by rcases List.mem_cons.1 hm with h | h; exact absurd h.symm hnk; exact h)
            have h4 : ((k, v) :: r).lookup n = r.lookup n := by simp only [List.lookup_cons, h2]
            rw [List.filterMap_cons, List.filterMap_cons, h4]
            cases r.lookup n with
            | none => exact h3
            | some w => simp only [count_cons_ite]; omega
      have := hr ns hns
      rw [hc ns hns hk, List.map_cons, count_cons_ite]; simp only at this ⊢; omega
    · have hf : ((k, v) :: r).filter (fun e => !ns.contains e.1) = (k, v) :: r.filter (fun e => !ns.contains e.1) := by
        rw [List.filter_cons]; simp [hk]
      have hc : (ns.filterMap (fun n => ((k, v) :: r).lookup n)) = (ns.filterMap (fun n => r.lookup n)) := by
        have : ∀ t : List String, k ∉ t → (t.filterMap (fun m => ((k, v) :: r).lookup m)) = t.filterMap (fun m => r.lookup m) := by
          intro t
          induction t with
          | nil => intro _; rfl
          | cons a t iha =>
            intro ha
            have h2 : (a == k) = false := by
              simp only [List.mem_cons, not_or] at ha; simpa using fun h => ha.1 h.symm
            have h3 := iha (fun h => ha (List.mem_cons_of_mem _ h))
            simp only [List.filterMap_cons, List.lookup_cons, h2] at h3 ⊢
            rw [h3]
        exact this ns hk
      have := hr ns hns
      rw [hf, hc, List.map_cons, List.map_cons, count_cons_ite, count_cons_ite]; simp only at this ⊢; omega

theorem filterMap_ext {l : List String} {g h : String → Option Nat} (e : ∀ n ∈ l, g n = h n) : l.filterMap g = l.filterMap h := by
  induction l with
  | nil => rfl
  | cons a r ih =>
    rw [List.filterMap_cons, List.filterMap_cons, e a (List.mem_cons_self ..), ih (fun n hn => e n (List.mem_cons_of_mem _ hn))]

theorem beforePopulate_inv (fields : List Field) : Inv (beforePopulate S f fields) :=
  (assignFields_good S f fields [] (inv_tick inv_empty)).1.inv

/-- **C49** for `LoadAndAssign`: whichever operations fail and whatever the order of iteration, if the
call fails then each object it opened was closed exactly once; if it succeeds then the objects given
to the fields are distinct, and each object the call opened was either given to a field or closed, and
not both; nothing is closed twice. -/
theorem loadAndAssign_owns (fields : List Field) (order : List String) :
    let (r, s) := loadAndAssign S f fields order
    (∀ x, s.closed.count x ≤ 1) ∧
    match r with
    | none => ∀ x, s.closed.count x = s.opened.count x
    | some ids => ids.Nodup ∧ (∀ x, ids.count x + s.closed.count x = s.opened.count x) ∧
        (∀ fl ∈ fields, ∃ e ∈ ([.map, .prog, .var] : List FKind), fl.kind = e) ∧
        (∀ fl ∈ fields, fl.kind = .map → ∃ id ∈ ids, (fl.name, id) ∈ s.mapLog) ∧
        (∀ fl ∈ fields, fl.kind = .prog → ∃ id ∈ ids, (fl.name, id) ∈ s.progLog) := by
  have hlook : ∀ (l : List (String × Nat)) n i, l.lookup n = some i → (n, i) ∈ l := by
    intro l n i h
    induction l with
    | nil => cases h
    | cons e r ih =>
      rcases e with ⟨k, v⟩
      by_cases hk : n = k
      · subst hk; rw [List.lookup_cons_self] at h; cases h; exact List.mem_cons_self ..
      · have h2 : (n == k) = false := by simpa using hk
        simp only [List.lookup_cons, h2] at h
        exact List.mem_cons_of_mem _ (ih h)
  unfold loadAndAssign
  simp only
  split
  · simp [L.tick]
  · have ha := assignFields_good S f fields [] (inv_tick inv_empty)
    have hkinds : ∀ (fs : List Field) (s : L) done ids, (assignFields S f s done fs).1 = some ids →
        (∀ fl ∈ fs, ∃ e ∈ ([.map, .prog, .var] : List FKind), fl.kind = e) ∧
        (∀ fl ∈ fs, fl.kind = .map → ∃ id ∈ ids, (assignFields S f s done fs).2.maps.lookup fl.name = some id) ∧
        (∀ fl ∈ fs, fl.kind = .prog → ∃ id ∈ ids, (assignFields S f s done fs).2.progs.lookup fl.name = some id) ∨ ¬ Inv s := by
      intro fs
      induction fs with
      | nil => intro s done ids _; exact .inl ⟨fun _ h => (by cases h), fun _ h => (by cases h), fun _ h => (by cases h)⟩
      | cons fl r ih =>
        intro s done ids h
        by_cases hs : Inv s
        · left
          have hall := assignFields_good S f (fl :: r) done hs
          by_cases hd : done.any (fun d => d.kind = fl.kind && d.name = fl.name) = true
          · have he : assignFields S f s done (fl :: r) = (none, s) := by unfold assignFields; rw [if_pos hd]
            rw [he] at h; cases h
          · obtain ⟨hc, hnm, hnp, -, -⟩ := hall.2 ids h
            have hkind : fl.kind ≠ .other := by
              intro hk
              have : getValue S f s fl = (none, s) := by unfold getValue; rw [hk]
              unfold assignFields at h; rw [if_neg hd, this] at h; cases h
            rcases hv : getValue S f s fl with ⟨o, t⟩
            cases o with
            | none => unfold assignFields at h; rw [if_neg hd, hv] at h; cases h
            | some o =>
              by_cases hok : fl.ok = true
              · rcases hq : assignFields S f t (fl :: done) r with ⟨q, u⟩
                cases q with
                | none => unfold assignFields at h; rw [if_neg hd, hv] at h; simp only [hok, hq] at h; cases h
                | some l =>
                  have he : assignFields S f s done (fl :: r) = (some (o.toList ++ l), u) := by
                    unfold assignFields; rw [if_neg hd, hv]; simp only [hok, hq]; rfl
                  rw [he] at h ⊢; cases h
                  have hgt : Inv t := by
                    unfold getValue at hv
                    rcases hk : fl.kind with _ | _ | _ | _ <;> rw [hk] at hv <;> simp only [Prod.mk.injEq] at hv
                    · rw [← hv.2]; exact (loadProgram_good S f hs fl.name).1.inv
                    · rw [← hv.2]; exact (loadMap_good S f hs fl.name).1.inv
                    · rw [← hv.2]; exact (loadVariable_good S f hs fl.name).inv
                    · cases hv.1
                  have hut := (assignFields_good S f r (fl :: done) hgt).1
                  rw [hq] at hut
                  have hi := ih t (fl :: done) l (by rw [hq])
                  rw [hq] at hi
                  rcases hi with ⟨i1, i2, i3⟩ | hi
                  · refine ⟨?_, ?_, ?_⟩
                    · intro g hg
                      rcases List.mem_cons.1 hg with rfl | hg
                      · refine ⟨g.kind, ?_, rfl⟩
                        rcases hk : g.kind with _ | _ | _ | _
                        · simp
                        · simp
                        · simp
                        · exact absurd hk hkind
                      · exact i1 g hg
                    · intro g hg hgk
                      rcases List.mem_cons.1 hg with rfl | hg
                      · unfold getValue at hv; rw [hgk] at hv; simp only [Prod.mk.injEq] at hv
                        rcases hm : loadMap S f s g.name with ⟨b, w⟩
                        rw [hm] at hv
                        have := (loadMap_good S f hs g.name).2
                        rw [hm] at this
                        cases b with
                        | none => cases hv.1
                        | some i =>
                          have h1 := hv.1; simp only [Option.map, Option.some.injEq] at h1; subst h1
                          have h2 := hv.2; simp only at h2; subst h2
                          exact ⟨i, by simp, hut.ext.maps _ _ (this i rfl)⟩
                      · obtain ⟨i, hi, hl⟩ := i2 g hg hgk
                        exact ⟨i, List.mem_append_right _ hi, hl⟩
                    · intro g hg hgk
                      rcases List.mem_cons.1 hg with rfl | hg
                      · unfold getValue at hv; rw [hgk] at hv; simp only [Prod.mk.injEq] at hv
                        rcases hm : loadProgram S f s g.name with ⟨b, w⟩
                        rw [hm] at hv
                        have := (loadProgram_good S f hs g.name).2
                        rw [hm] at this
                        cases b with
                        | none => cases hv.1
                        | some i =>
                          have h1 := hv.1; simp only [Option.map, Option.some.injEq] at h1; subst h1
                          have h2 := hv.2; simp only at h2; subst h2
                          exact ⟨i, by simp, hut.ext.progs _ _ (this i rfl)⟩
                      · obtain ⟨i, hi, hl⟩ := i3 g hg hgk
                        exact ⟨i, List.mem_append_right _ hi, hl⟩
                  · exact absurd hgt hi
              · unfold assignFields at h; rw [if_neg hd, hv] at h; simp [hok] at h
        · exact .inr hs
    have hkk := hkinds fields (L.tick {}) []
    rcases hA : assignFields S f (L.tick {}) [] fields with ⟨o, t⟩
    rw [hA] at ha hkk
    cases o with
    | none => have := inv_closeRest ha.1.inv; exact ⟨this.2, this.1⟩
    | some ids =>
      simp only
      obtain ⟨hc, hnm, hnp, -, -⟩ := ha.2 ids rfl
      have hp := populate_good S f order ha.1.inv
      rcases hP : populate S f t order with ⟨b, u⟩
      rw [hP] at hp
      cases b with
      | false => have := inv_closeRest hp.inv; exact ⟨this.2, this.1⟩
      | true =>
        simp only
        split
        · have := inv_closeRest hp.inv; exact ⟨this.2, this.1⟩
        · obtain ⟨k1, k2, k3⟩ := (hkk ids rfl).resolve_right (fun h => h (inv_tick inv_empty))
          simp only at hc k2 k3
          have em : (namesOf .map fields).filterMap (fun n => t.maps.lookup n) = (namesOf .map fields).filterMap (fun n => u.maps.lookup n) := by
            apply filterMap_ext
            intro n hn
            simp only [namesOf, List.mem_map, List.mem_filter, decide_eq_true_eq] at hn
            obtain ⟨fl, ⟨hfl, hk⟩, rfl⟩ := hn
            obtain ⟨i, -, hl⟩ := k2 fl hfl hk
            rw [hl, hp.ext.maps _ _ hl]
          have ep : (namesOf .prog fields).filterMap (fun n => t.progs.lookup n) = (namesOf .prog fields).filterMap (fun n => u.progs.lookup n) := by
            apply filterMap_ext
            intro n hn
            simp only [namesOf, List.mem_map, List.mem_filter, decide_eq_true_eq] at hn
            obtain ⟨fl, ⟨hfl, hk⟩, rfl⟩ := hn
            obtain ⟨i, -, hl⟩ := k3 fl hfl hk
            rw [hl, hp.ext.progs _ _ hl]
          have total : ∀ x, ids.count x + (closeRest (release u (namesOf .map fields) (namesOf .prog fields))).closed.count x = u.opened.count x := by
            intro x
            simp only [closeRest, release, List.count_append]
            have h1 := hc x
            rw [em, ep] at h1
            have h2 := count_filter u.maps hp.inv.mkeys x (namesOf .map fields) hnm
            have h3 := count_filter u.progs hp.inv.pkeys x (namesOf .prog fields) hnp
            have h4 := hp.inv.count x
            simp only at h1 h2 h3 h4
            omega
          refine ⟨fun x => ?_, ?_, total, k1, ?_, ?_⟩
          · have := total x; have := hp.inv.le x; simp only at this ⊢; omega
          · rw [List.nodup_iff_count]; intro x; have := total x; have := hp.inv.le x; simp only at this; omega
          · intro fl hfl hk
            obtain ⟨i, hi, hl⟩ := k2 fl hfl hk
            refine ⟨i, hi, ?_⟩
            have : (closeRest (release u (namesOf .map fields) (namesOf .prog fields))).mapLog = u.maps := hp.inv.mlog
            rw [this]; exact hlook _ _ _ (hp.ext.maps _ _ hl)
          · intro fl hfl hk
            obtain ⟨i, hi, hl⟩ := k3 fl hfl hk
            refine ⟨i, hi, ?_⟩
            have : (closeRest (release u (namesOf .map fields) (namesOf .prog fields))).progLog = u.progs := hp.inv.plog
            rw [this]; exact hlook _ _ _ (hp.ext.progs _ _ hl)

/-- **C49** for `NewCollection`: if it fails each object that was opened is closed exactly once; if it
succeeds nothing that is in the collection was closed, and each object that was opened is in the
collection exactly once or was closed. -/
theorem newCollection_owns (o : Orders) :
    let (r, s) := newCollection S f o
    (∀ x, s.closed.count x ≤ 1) ∧
    match r with
    | none => ∀ x, s.closed.count x = s.opened.count x
    | some c => (c.maps.map (·.2) ++ c.progs.map (·.2)).Nodup ∧
        ∀ x, (c.maps.map (·.2) ++ c.progs.map (·.2)).count x + s.closed.count x = s.opened.count x := by
  unfold newCollection
  simp only
  split
  · simp [L.tick]
  · have h1 := loadAllMaps_good S f o.maps (inv_tick inv_empty)
    rcases e1 : loadAllMaps S f (L.tick {}) o.maps with ⟨b, t⟩
    rw [e1] at h1
    cases b with
    | false => have := inv_closeRest h1.inv; exact ⟨this.2, this.1⟩
    | true =>
      simp only
      have h2 := loadAllProgs_good S f o.progs h1.inv
      rcases e2 : loadAllProgs S f t o.progs with ⟨b, u⟩
      rw [e2] at h2
      cases b with
      | false => have := inv_closeRest h2.inv; exact ⟨this.2, this.1⟩
      | true =>
        simp only
        have h3 := loadAllVars_good S f o.vars h2.inv
        rcases e3 : loadAllVars S f u o.vars with ⟨b, v⟩
        rw [e3] at h3
        cases b with
        | false => have := inv_closeRest h3.inv; exact ⟨this.2, this.1⟩
        | true =>
          simp only
          have h4 := populate_good S f o.populate h3.inv
          rcases e4 : populate S f v o.populate with ⟨b, w⟩
          rw [e4] at h4
          cases b with
          | false => have := inv_closeRest h4.inv; exact ⟨this.2, this.1⟩
          | true =>
            simp only
            have hc := h4.inv.count
            have hl := h4.inv.le
            refine ⟨fun x => ?_, ?_, fun x => ?_⟩
            · have := hc x; have := hl x; simp only at *; omega
            · rw [List.nodup_iff_count]; intro x; rw [List.count_append]; have := hc x; have := hl x; simp only at *; omega
            · rw [List.count_append]; exact hc x

end Ebpf.Coll
