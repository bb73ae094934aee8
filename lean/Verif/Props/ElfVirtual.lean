import Verif.Spec.ElfVirtual
/-!
# C108: struct_ops variables, `.kconfig` and `.ksyms` of an object
-/
namespace Ebpf.ElfVirtual
open Ebpf.StructOps Spec

/-! ## looking through typedefs and qualifiers -/

theorem as_iff {α : Type} {p : Ty → Option α} (hp : ∀ t, (p (.qual t)) = none ∧ p (.typedef t) = none) (a : α) : ∀ (d : Nat) (t : Ty),
    as p d t = some a ↔ ∃ n u, n < d ∧ Strips n t u ∧ p u = some a := by
  intro d
  induction d with
  | zero => intro t; simp [as]
  | succ d ih =>
    intro t
    rw [as]
    cases hpt : p t with
    | some b =>
      simp only [Option.some.injEq]
      constructor
      · rintro rfl; exact ⟨0, t, by omega, .refl t, hpt⟩
      · rintro ⟨n, u, hn, hs, hu⟩
        cases hs with
        | refl => rw [hpt] at hu; cases hu; rfl
        | qual _ => rw [(hp _).1] at hpt; cases hpt
        | typedef _ => rw [(hp _).2] at hpt; cases hpt
    | none =>
      simp only
      cases t with
      | qual t' =>
        simp only [next, ih]
        constructor
        · rintro ⟨n, u, hn, hs, hu⟩; exact ⟨n + 1, u, by omega, .qual hs, hu⟩
        · rintro ⟨n, u, hn, hs, hu⟩
          cases hs with
          | refl => rw [hpt] at hu; cases hu
          | qual h => exact ⟨_, u, by omega, h, hu⟩
      | typedef t' =>
        simp only [next, ih]
        constructor
        · rintro ⟨n, u, hn, hs, hu⟩; exact ⟨n + 1, u, by omega, .typedef hs, hu⟩
        · rintro ⟨n, u, hn, hs, hu⟩
          cases hs with
          | refl => rw [hpt] at hu; cases hu
          | typedef h => exact ⟨_, u, by omega, h, hu⟩
      | struct s =>
        constructor
        · intro h; cases h
        · rintro ⟨n, u, hn, hs, hu⟩; cases hs; rw [hpt] at hu; cases hu
      | var s t' =>
        constructor
        · intro h; cases h
        · rintro ⟨n, u, hn, hs, hu⟩; cases hs; rw [hpt] at hu; cases hu
      | func s =>
        constructor
        · intro h; cases h
        · rintro ⟨n, u, hn, hs, hu⟩; cases hs; rw [hpt] at hu; cases hu
      | other s =>
        constructor
        · intro h; cases h
        · rintro ⟨n, u, hn, hs, hu⟩; cases hs; rw [hpt] at hu; cases hu

theorem isVar_some {u : Ty} {n : Bytes} {t : Ty} : isVar u = some (n, t) ↔ u = .var n t := by
  cases u <;> simp [isVar]

theorem isStruct_some {u : Ty} {s : Struct} : isStruct u = some s ↔ u = .struct s := by
  cases u <;> simp [isStruct]

theorem asVar_iff {t : Ty} {n : Bytes} {u : Ty} : asVar t = some (n, u) ↔ ∃ k, k ≤ 32 ∧ Strips k t (.var n u) := by
  rw [asVar, as_iff (fun _ => ⟨rfl, rfl⟩)]
  constructor
  · rintro ⟨k, v, hk, hs, hv⟩; rw [isVar_some] at hv; subst hv; exact ⟨k, by omega, hs⟩
  · rintro ⟨k, hk, hs⟩; exact ⟨k, _, by omega, hs, rfl⟩

theorem asStruct_iff {t : Ty} {s : Struct} : asStruct t = some s ↔ ∃ k, k ≤ 32 ∧ Strips k t (.struct s) := by
  rw [asStruct, as_iff (fun _ => ⟨rfl, rfl⟩)]
  constructor
  · rintro ⟨k, v, hk, hs, hv⟩; rw [isStruct_some] at hv; subst hv; exact ⟨k, by omega, hs⟩
  · rintro ⟨k, hk, hs⟩; exact ⟨k, _, by omega, hs, rfl⟩

theorem declares_iff {v : VarSecinfo} {d : Decl} : Declares v d ↔ ∃ t, asVar v.type = some (d.name, t) ∧ asStruct t = some d.st ∧ d.off = v.offset := by
  unfold Declares
  constructor
  · rintro ⟨n, m, t, hn, hm, h1, h2, h3⟩; exact ⟨t, asVar_iff.mpr ⟨n, hn, h1⟩, asStruct_iff.mpr ⟨m, hm, h2⟩, h3⟩
  · rintro ⟨t, h1, h2, h3⟩
    obtain ⟨n, hn, h1⟩ := asVar_iff.mp h1
    obtain ⟨m, hm, h2⟩ := asStruct_iff.mp h2
    exact ⟨n, m, t, hn, hm, h1, h2, h3⟩

/-! ## one variable -/

theorem any_false {maps : List (Bytes × MapSpec)} {n : Bytes} : maps.any (fun m => m.1 == n) = false ↔ ∀ m ∈ maps, m.1 ≠ n := by
  rw [List.any_eq_false]
  constructor
  · intro h m hm he; exact h m hm (by simp [he])
  · intro h m hm he; exact h m hm (by simpa using he)

theorem createMap_iff {v : VarSecinfo} {data : Bytes} {flags : Nat} {maps : List (Bytes × MapSpec)} (hd : data.length < 2 ^ 32) {r : MapSpec × Struct × Nat} :
    createMap v data flags maps = .ok r ↔
    ∃ d, Declares v d ∧ d.off + d.st.size ≤ data.length ∧ (∀ m ∈ maps, m.1 ≠ d.name) ∧ r = ((mapOf data flags d).2, d.st, d.off) := by
  rw [createMap]
  constructor
  · intro h
    split at h
    · cases h
    · rename_i name t hv
      split at h
      · cases h
      · rename_i st hst
        split at h
        · cases h
        · rename_i h1
          split at h
          · cases h
          · rename_i h2
            rw [Bool.not_eq_true, any_false] at h2
            have hm : (v.offset + st.size) % 2 ^ 32 = v.offset + st.size := Nat.mod_eq_of_lt (by omega)
            rw [hm, if_neg (by omega)] at h
            cases h
            refine ⟨⟨name, st, v.offset⟩, declares_iff.mpr ⟨t, hv, hst, rfl⟩, by simp only; omega, h2, ?_⟩
            simp only [mapOf, Nat.add_sub_cancel_left]
  · rintro ⟨⟨name, st, off⟩, hdcl, h1, h2, rfl⟩
    obtain ⟨t, ha, hb, hc⟩ := declares_iff.mp hdcl
    simp only at ha hb hc h1 h2
    subst hc
    have hm : (v.offset + st.size) % 2 ^ 32 = v.offset + st.size := Nat.mod_eq_of_lt (by omega)
    simp only [ha, hb]
    rw [if_neg (by omega), if_neg (by rw [Bool.not_eq_true]; exact any_false.mpr h2), hm, if_neg (by omega)]
    simp only [mapOf, Nat.add_sub_cancel_left]

/-! ## programs -/

theorem assigned_append (a b : List (Bytes × Bytes)) (p : Prog) : assigned b (assigned a p) = assigned (a ++ b) p := by
  have : ∀ (a : List (Bytes × Bytes)) (k old : Bytes), lastOr k (lastOr k old a) b = lastOr k old (a ++ b) := by
    intro a
    induction a with
    | nil => intro k old; rfl
    | cons x a ih => intro k old; obtain ⟨s, to⟩ := x; simp only [List.cons_append, lastOr]; exact ih _ _
  simp only [assigned, this]

theorem assigned_name (a : List (Bytes × Bytes)) (p : Prog) : (assigned a p).name = p.name := rfl
theorem assigned_structOps (a : List (Bytes × Bytes)) (p : Prog) : (assigned a p).structOps = p.structOps := rfl

/-- Programs of a name. -/
theorem find_named {progs : List Prog} (hu : (progs.map (·.name)).Nodup) {n : Bytes} {p : Prog} (hp : p ∈ progs) (hn : p.name = n) :
    progs.find? (fun p => p.name = n) = some p := by
  induction progs with
  | nil => cases hp
  | cons q qs ih =>
    rw [List.map_cons, List.nodup_cons] at hu
    rw [List.find?_cons]
    rcases List.mem_cons.mp hp with e | hq
    · subst e; simp [hn]
    · have : q.name ≠ n := fun e => hu.1 (by rw [e, ← hn]; exact List.mem_map_of_mem hq)
      simp only [this, decide_false]
      exact ih hu.2 hq

/-- The function pointers of some members. -/
def ptrs (relocs : Nat → Option Bytes) (base : Nat) (st : Bytes) (ms : List Member) : List (Bytes × Bytes) :=
  ms.filterMap fun m => (relocs (base + m.offset)).map fun s => (s, st ++ [0x3a#8] ++ m.name)

theorem setAttach_assigned (n to : Bytes) (progs : List Prog) : setAttach n to progs = progs.map (assigned [(n, to)]) := by
  unfold setAttach
  apply List.map_congr_left
  intro p _
  simp only [assigned, lastOr]
  by_cases h : p.name = n
  · rw [if_pos h, if_pos h.symm]
  · rw [if_neg h, if_neg (fun e => h e.symm)]

theorem map_assigned_names (a : List (Bytes × Bytes)) (progs : List Prog) : (progs.map (assigned a)).map (·.name) = progs.map (·.name) := by
  rw [List.map_map]; rfl

/-- Every pointer is to a struct_ops program. -/
def Good (l : List (Bytes × Bytes)) (progs : List Prog) : Prop := ∀ x ∈ l, ∃ p ∈ progs, p.name = x.1 ∧ p.structOps = true

theorem good_assigned {l a : List (Bytes × Bytes)} {progs : List Prog} : Good l (progs.map (assigned a)) ↔ Good l progs := by
  unfold Good
  constructor
  · intro h x hx
    obtain ⟨p, hp, h1, h2⟩ := h x hx
    obtain ⟨q, hq, rfl⟩ := List.mem_map.mp hp
    exact ⟨q, hq, h1, h2⟩
  · intro h x hx
    obtain ⟨p, hp, h1, h2⟩ := h x hx
    exact ⟨_, List.mem_map_of_mem hp, h1, h2⟩

theorem setAttachTo_iff (relocs : Nat → Option Bytes) (base : Nat) (st : Bytes) : ∀ (ms : List Member) (progs progs' : List Prog), (progs.map (·.name)).Nodup →
    (setAttachTo relocs base st ms progs = .ok progs' ↔ Good (ptrs relocs base st ms) progs ∧ progs' = progs.map (assigned (ptrs relocs base st ms))) := by
  intro ms
  induction ms with
  | nil =>
    intro progs progs' hu
    simp only [setAttachTo, ptrs, List.filterMap_nil, Except.ok.injEq]
    have : progs.map (assigned []) = progs := by
      conv => rhs; rw [← List.map_id progs]
      apply List.map_congr_left; intro p _; rfl
    rw [this]
    constructor
    · rintro rfl; exact ⟨(by intro x hx; cases hx), rfl⟩
    · exact fun h => h.2.symm
  | cons m ms ih =>
    intro progs progs' hu
    rw [setAttachTo]
    cases hr : relocs (base + m.offset) with
    | none =>
      have e : ptrs relocs base st (m :: ms) = ptrs relocs base st ms := by simp [ptrs, hr]
      rw [e]
      exact ih progs progs' hu
    | some sym =>
      have e : ptrs relocs base st (m :: ms) = (sym, st ++ [0x3a#8] ++ m.name) :: ptrs relocs base st ms := by simp [ptrs, hr]
      rw [e]
      simp only
      cases hf : progs.find? (fun p => p.name = sym) with
      | none =>
        simp only
        constructor
        · intro h; cases h
        · rintro ⟨hg, _⟩
          obtain ⟨p, hp, hn, _⟩ := hg _ List.mem_cons_self
          have := List.find?_eq_none.mp hf p hp
          simp [hn] at this
      | some p =>
        simp only
        have hpm := List.mem_of_find?_eq_some hf
        have hpn : p.name = sym := by simpa using List.find?_some hf
        by_cases hs : p.structOps = true
        · rw [if_pos hs]
          rw [show key st m.name = st ++ [0x3a#8] ++ m.name from rfl, setAttach_assigned, ih _ _ (by rw [map_assigned_names]; exact hu), good_assigned, List.map_map]
          have e2 : (assigned (ptrs relocs base st ms) ∘ assigned [(sym, st ++ [0x3a#8] ++ m.name)]) = assigned ((sym, st ++ [0x3a#8] ++ m.name) :: ptrs relocs base st ms) := by
            funext q; exact assigned_append _ _ q
          rw [e2]
          constructor
          · rintro ⟨hg, he⟩
            refine ⟨?_, he⟩
            intro x hx
            rcases List.mem_cons.mp hx with rfl | hx
            · exact ⟨p, hpm, hpn, hs⟩
            · exact hg x hx
          · rintro ⟨hg, he⟩
            exact ⟨fun x hx => hg x (List.mem_cons_of_mem _ hx), he⟩
        · rw [if_neg hs]
          constructor
          · intro h; cases h
          · rintro ⟨hg, _⟩
            obtain ⟨q, hq, hn, hqs⟩ := hg _ List.mem_cons_self
            have := find_named hu hq hn
            simp only at this
            rw [this] at hf
            cases hf
            exact absurd hqs hs

/-! ## one section -/

theorem pointers_eq (relocs : Nat → Option Bytes) (d : Decl) : pointers relocs d = ptrs relocs d.off d.st.name d.st.members := rfl

theorem associateVars_iff {data : Bytes} {flags : Nat} {relocs : Nat → Option Bytes} (hd : data.length < 2 ^ 32) : ∀ (vs : List VarSecinfo) (s s' : St),
    (s.progs.map (·.name)).Nodup →
    (associateVars data flags relocs vs s = .ok s' ↔ ∃ ds, AllDeclare vs ds ∧ Loads data flags relocs ds s s') := by
  intro vs
  induction vs with
  | nil =>
    intro s s' hu
    simp only [associateVars, Except.ok.injEq]
    have hid : s.progs.map (assigned []) = s.progs := by
      conv => rhs; rw [← List.map_id s.progs]
      apply List.map_congr_left; intro p _; rfl
    constructor
    · rintro rfl
      exact ⟨[], .nil, ⟨by simp, by simp, by simp, by simp, by simp, by simp [hid]⟩⟩
    · rintro ⟨ds, ha, hl⟩
      cases ha
      have h1 := hl.maps
      have h2 := hl.assigned
      simp only [List.map_nil, List.append_nil, List.flatMap_nil, hid] at h1 h2
      cases s; cases s'; simp_all
  | cons v vs ih =>
    intro s s' hu
    rw [associateVars]
    constructor
    · intro h
      cases hc : createMap v data flags s.maps with
      | error e => rw [hc] at h; cases h
      | ok r =>
        obtain ⟨d, hdcl, hin, hfr, rfl⟩ := (createMap_iff hd).mp hc
        rw [hc] at h
        simp only at h
        cases hs : setAttachTo relocs d.off d.st.name d.st.members s.progs with
        | error e => rw [hs] at h; cases h
        | ok progs =>
          rw [hs] at h
          simp only at h
          obtain ⟨hg, rfl⟩ := (setAttachTo_iff _ _ _ _ _ _ hu).mp hs
          obtain ⟨ds, ha, hl⟩ := (ih _ _ (by rw [map_assigned_names]; exact hu)).mp h
          refine ⟨d :: ds, .cons hdcl ha, ?_⟩
          have hname : (mapOf data flags d).2.name = d.name := rfl
          refine ⟨?_, ?_, ?_, ?_, ?_, ?_⟩
          · intro x hx
            rcases List.mem_cons.mp hx with rfl | hx
            · exact hin
            · exact hl.inside x hx
          · rw [List.map_cons, List.nodup_cons]
            refine ⟨?_, hl.distinct⟩
            intro hm
            obtain ⟨x, hx, he⟩ := List.mem_map.mp hm
            exact hl.fresh x hx (d.name, (mapOf data flags d).2) (by simp [hname]) he.symm
          · intro x hx m hm
            rcases List.mem_cons.mp hx with rfl | hx
            · exact hfr m hm
            · exact hl.fresh x hx m (by simp [hm])
          · rw [hl.maps]; simp only [List.map_cons, List.append_assoc, List.singleton_append, hname]; rfl
          · intro x hx
            rw [List.flatMap_cons, List.mem_append] at hx
            rcases hx with hx | hx
            · exact hg x hx
            · exact good_assigned.mp hl.programs x hx
          · rw [hl.assigned, List.map_map, List.flatMap_cons]
            apply List.map_congr_left
            intro p _
            exact assigned_append _ _ p
    · rintro ⟨ds0, ha0, hl⟩
      cases ha0 with
      | cons hdcl ha =>
        rename_i d ds
        have hc := (createMap_iff (flags := flags) (maps := s.maps) hd).mpr ⟨d, hdcl, hl.inside d List.mem_cons_self, hl.fresh d List.mem_cons_self, rfl⟩
        rw [hc]
        simp only
        have hg : Good (ptrs relocs d.off d.st.name d.st.members) s.progs := fun x hx =>
          hl.programs x (by rw [List.flatMap_cons, List.mem_append]; exact Or.inl hx)
        rw [(setAttachTo_iff _ _ _ _ _ _ hu).mpr ⟨hg, rfl⟩]
        simp only
        rw [ih _ _ (by rw [map_assigned_names]; exact hu)]
        refine ⟨ds, ha, ?_⟩
        have hname : (mapOf data flags d).2.name = d.name := rfl
        have hnd := hl.distinct
        rw [List.map_cons, List.nodup_cons] at hnd
        refine ⟨fun x hx => hl.inside x (List.mem_cons_of_mem _ hx), hnd.2, ?_, ?_, ?_, ?_⟩
        · intro x hx m hm
          rw [List.mem_append, List.mem_singleton] at hm
          rcases hm with hm | rfl
          · exact hl.fresh x (List.mem_cons_of_mem _ hx) m hm
          · intro he
            exact hnd.1 (by rw [show d.name = x.name from he]; exact List.mem_map_of_mem hx)
        · rw [hl.maps]; simp only [List.map_cons, List.append_assoc, List.singleton_append, hname]; rfl
        · apply good_assigned.mpr
          intro x hx
          exact hl.programs x (by rw [List.flatMap_cons, List.mem_append]; exact Or.inr hx)
        · rw [hl.assigned, List.map_map, List.flatMap_cons]
          apply List.map_congr_left
          intro p _
          exact (assigned_append _ _ p).symm

/-! ## all sections -/

theorem linkName_eq : linkName = linkSec := by decide

/-- **C108** The struct_ops sections of an object: loading succeeds exactly if there is BTF with the Datasec, every variable is a struct inside the section,
no name is taken and every function pointer is to a struct_ops program; then each variable has become one map with its bytes, all maps there were
are unchanged, and each program is for the last member that points to it. -/
theorem structOps_exact (btf : Option (Bytes → Lookup)) : ∀ (secs : List Sec) (s s' : St), (∀ sec ∈ secs, sec.name = linkName) →
    (∀ sec ∈ secs, ∀ data, sec.data = some data → data.length < 2 ^ 32) → (s.progs.map (·.name)).Nodup →
    (associate btf secs s = .ok s' ↔ LoadsAll btf secs s s') := by
  intro secs
  induction secs with
  | nil =>
    intro s s' _ _ _
    simp only [associate, Except.ok.injEq]
    constructor
    · rintro rfl; exact .nil _
    · intro h; cases h; rfl
  | cons sec secs ih =>
    intro s s' hn hd hu
    have hsec : sec.name = linkSec := (hn sec List.mem_cons_self).trans linkName_eq
    rw [associate]
    constructor
    · intro h
      cases hdata : sec.data with
      | none => rw [hdata] at h; cases h
      | some data =>
        rw [hdata] at h
        cases btf with
        | none => cases h
        | some f =>
          simp only at h
          cases hf : f sec.name with
          | notFound => rw [hf] at h; cases h
          | failed => rw [hf] at h; cases h
          | found ds =>
            rw [hf] at h
            simp only [if_pos hsec] at h
            cases ha : associateVars data 8192 sec.relocs ds.vars s with
            | error e => rw [ha] at h; cases h
            | ok s1 =>
              rw [ha] at h
              obtain ⟨decls, hdl, hl⟩ := (associateVars_iff (hd sec List.mem_cons_self data hdata) _ _ _ hu).mp ha
              have hu1 : (s1.progs.map (·.name)).Nodup := by rw [hl.assigned, map_assigned_names]; exact hu
              exact .cons hdata rfl hf hdl hl ((ih s1 s' (fun x hx => hn x (List.mem_cons_of_mem _ hx)) (fun x hx => hd x (List.mem_cons_of_mem _ hx)) hu1).mp h)
    · intro h
      cases h with
      | cons hdata hb hf hdl hl hr =>
        have hu1 := hu
        rw [← map_assigned_names _ s.progs, ← hl.assigned] at hu1
        have ha := (associateVars_iff (flags := 8192) (hd sec List.mem_cons_self _ hdata) _ _ _ hu).mpr ⟨_, hdl, hl⟩
        subst hb
        simp only [hdata, hf, if_pos hsec, ha]
        exact (ih _ s' (fun x hx => hn x (List.mem_cons_of_mem _ hx)) (fun x hx => hd x (List.mem_cons_of_mem _ hx)) hu1).mpr hr

theorem allDeclare_nil {vs : List VarSecinfo} (h : AllDeclare vs []) : vs = [] := by cases h; rfl

theorem loads_nil {data : Bytes} {flags : Nat} {relocs : Nat → Option Bytes} {s s' : St} (h : Loads data flags relocs [] s s') : s' = s := by
  have h1 := h.maps
  have h2 := h.assigned
  have hid : s.progs.map (assigned []) = s.progs := by
    conv => rhs; rw [← List.map_id s.progs]
    apply List.map_congr_left; intro p _; rfl
  simp only [List.map_nil, List.append_nil, List.flatMap_nil, hid] at h1 h2
  cases s; cases s'; simp_all

/-- If maps have been added there was one section. -/
theorem loadsAll_changed {f : Bytes → Lookup} {ds : Datasec} (hf : f linkName = .found ds) : ∀ (secs : List Sec) (s s' : St), (∀ sec ∈ secs, sec.name = linkName) →
    LoadsAll (some f) secs s s' → ∀ decls, AllDeclare ds.vars decls → (∃ d ∈ decls, ∃ m ∈ s.maps, m.1 = d.name) → secs = [] := by
  intro secs s s' hn h decls hdl hex
  cases h with
  | nil => rfl
  | cons hdata hb hf' hdl' hl hr =>
    exfalso
    cases hb
    rw [hn _ List.mem_cons_self, hf] at hf'
    cases hf'
    rename_i decls'
    have : ∀ (vs : List VarSecinfo) (a b : List Decl), AllDeclare vs a → AllDeclare vs b → a = b := by
      intro vs
      induction vs with
      | nil => intro a b ha hb; cases ha; cases hb; rfl
      | cons v vs ih =>
        intro a b ha hb
        cases ha with
        | cons h1 h2 =>
          cases hb with
          | cons h3 h4 =>
            rename_i x xs y ys
            have e := ih _ _ h2 h4
            obtain ⟨t, p1, p2, p3⟩ := declares_iff.mp h1
            obtain ⟨t', q1, q2, q3⟩ := declares_iff.mp h3
            rw [p1] at q1
            cases x; cases y
            simp only [Option.some.injEq, Prod.mk.injEq] at *
            obtain ⟨e1, e2⟩ := q1
            subst e2
            rw [p2] at q2
            cases q2
            subst e1 p3 q3 e
            simp
    have e := this _ _ _ hdl hdl'
    subst e
    obtain ⟨d, hd, m, hm, he⟩ := hex
    exact hl.fresh d hd m hm he

/-- **C108** The result doesn't depend on the order in which Go ranges over the sections. -/
theorem structOps_order (btf : Option (Bytes → Lookup)) (secs secs' : List Sec) (s s' : St) (hn : ∀ sec ∈ secs, sec.name = linkName)
    (hd : ∀ sec ∈ secs, ∀ data, sec.data = some data → data.length < 2 ^ 32) (hu : (s.progs.map (·.name)).Nodup) (hp : secs.Perm secs') :
    associate btf secs s = .ok s' ↔ associate btf secs' s = .ok s' := by
  have main : ∀ (a b : List Sec), a.Perm b → (∀ sec ∈ a, sec.name = linkName) → LoadsAll btf a s s' → LoadsAll btf b s s' := by
    intro a b hab hna h
    cases h with
    | nil => rw [List.nil_perm.mp hab]; exact .nil _
    | cons hdata hb hf hdl hl hr =>
      rename_i sec secs s1 data f ds decls
      subst hb
      rw [hna sec List.mem_cons_self] at hf
      by_cases hv : ds.vars = []
      · -- nothing is declared
        rw [hv] at hdl
        cases hdl
        have e := loads_nil hl
        subst e
        have key : ∀ (l : List Sec) (s s' : St), (∀ sec ∈ l, sec.name = linkName) → LoadsAll (some f) l s s' → s' = s ∧ ∀ sec ∈ l, sec.data.isSome = true := by
          intro l
          induction l with
          | nil => intro s s' _ h; cases h; exact ⟨rfl, by simp⟩
          | cons x l ih =>
            intro s s' hx h
            cases h with
            | cons g1 g2 g3 g4 g5 g6 =>
              cases g2
              rw [hx x List.mem_cons_self, hf] at g3
              cases g3
              rw [hv] at g4
              cases g4
              have e := loads_nil g5
              subst e
              obtain ⟨e, hs⟩ := ih _ _ (fun y hy => hx y (List.mem_cons_of_mem _ hy)) g6
              refine ⟨e, ?_⟩
              intro y hy
              rcases List.mem_cons.mp hy with rfl | hy
              · rw [g1]; rfl
              · exact hs y hy
        obtain ⟨e, hs⟩ := key _ _ _ (fun y hy => hna y (List.mem_cons_of_mem _ hy)) hr
        subst e
        have hall : ∀ x ∈ b, x.data.isSome = true ∧ x.name = linkName := by
          intro x hx
          have hx' := hab.mem_iff.mpr hx
          refine ⟨?_, hna x hx'⟩
          rcases List.mem_cons.mp hx' with rfl | hx'
          · rw [hdata]; rfl
          · exact hs x hx'
        have build : ∀ (l : List Sec), (∀ x ∈ l, x.data.isSome = true ∧ x.name = linkName) → LoadsAll (some f) l s' s' := by
          intro l
          induction l with
          | nil => intro _; exact .nil _
          | cons x l ih =>
            intro hx
            obtain ⟨h1, h2⟩ := hx x List.mem_cons_self
            obtain ⟨dx, hdx⟩ := Option.isSome_iff_exists.mp h1
            have hid : s'.progs.map (assigned []) = s'.progs := by
              conv => rhs; rw [← List.map_id s'.progs]
              apply List.map_congr_left; intro p _; rfl
            refine .cons (decls := []) hdx rfl (by rw [h2]; exact hf) (by rw [hv]; exact .nil) ⟨by simp, by simp, by simp, by simp, by simp, by simp [hid]⟩ (ih fun y hy => hx y (List.mem_cons_of_mem _ hy))
        exact build b hall
      · -- there is only one section
        have hne : decls ≠ [] := fun e => hv (by subst e; exact allDeclare_nil hdl)
        obtain ⟨d, hd0⟩ := List.exists_mem_of_ne_nil decls hne
        have hnil := loadsAll_changed hf secs s1 s' (fun y hy => hna y (List.mem_cons_of_mem _ hy)) hr decls hdl
          ⟨d, hd0, mapOf data 8192 d, by rw [hl.maps]; exact List.mem_append_right _ (List.mem_map_of_mem hd0), rfl⟩
        subst hnil
        have eb : b = [sec] := List.perm_singleton.mp hab.symm
        rw [eb]
        exact .cons hdata rfl (by rw [hna sec List.mem_cons_self]; exact hf) hdl hl hr
  have hn' : ∀ sec ∈ secs', sec.name = linkName := fun x hx => hn x (hp.mem_iff.mpr hx)
  rw [structOps_exact btf secs s s' hn hd hu, structOps_exact btf secs' s s' hn' (fun x hx => hd x (hp.mem_iff.mpr hx)) hu]
  exact ⟨main _ _ hp hn, main _ _ hp.symm hn'⟩

/-! ## virtual sections -/

theorem kconfigName_eq : nameOf ".kconfig" = kconfigName := by decide
theorem ksymsName_eq : nameOf ".ksyms" = ksymsName := by decide
theorem valuePrefix_eq : nameOf "bpf_struct_ops_" = valuePrefix := by decide

/-- **C108** `.kconfig` gives a read-only array of one value of its size, described by it, or nothing if there is no such Datasec. BPF_MAP_TYPE_ARRAY is 2, BPF_F_RDONLY_PROG 128. -/
theorem kconfig_exact (btf : Option (Bytes → Lookup)) (r : Option MapSpec) : loadKconfig btf = .ok r ↔
    (r = none ∧ (btf = none ∨ ∃ f, btf = some f ∧ f (nameOf ".kconfig") = .notFound)) ∨
    (∃ f ds, btf = some f ∧ f (nameOf ".kconfig") = .found ds ∧ 0 < ds.size ∧ r = some ⟨nameOf ".kconfig", 2, 4, ds.size, 1, 128, .datasec ds, []⟩) := by
  rw [kconfigName_eq]
  unfold loadKconfig
  cases btf with
  | none => simp [eq_comm]
  | some f =>
    simp only
    cases hf : f kconfigName with
    | notFound => simp [hf, eq_comm]
    | failed => simp [hf]
    | found ds =>
      simp only
      by_cases h : ds.size = 0
      · simp [hf, h]
      · simp only [if_neg h, Except.ok.injEq]
        constructor
        · rintro rfl; exact Or.inr ⟨f, ds, rfl, hf, by omega, rfl⟩
        · rintro (⟨_, h | ⟨g, hg, h⟩⟩ | ⟨g, ds', hg, h, _, rfl⟩)
          · cases h
          · cases hg; rw [hf] at h; cases h
          · cases hg; rw [hf] at h; cases h; rfl

theorem lookup_reverse (n : Bytes) : ∀ (l acc : List (Bytes × Ty)), (l.reverse ++ acc).lookup n = (lastNamed n l).or (acc.lookup n) := by
  intro l
  induction l with
  | nil => intro acc; simp [lastNamed]
  | cons x l ih =>
    intro acc
    obtain ⟨k, t⟩ := x
    rw [List.reverse_cons, List.append_assoc, ih, lastNamed, List.singleton_append, List.lookup_cons]
    cases lastNamed n l with
    | some u => rfl
    | none =>
      simp only [Option.none_or]
      by_cases h : k = n
      · subst h; simp
      · have : (n == k) = false := by simpa using fun e => h e.symm
        simp [h, this]

theorem loadKsymsVars_eq : ∀ (vs : List VarSecinfo) (a b : List (Bytes × Ty)),
    ((∀ v ∈ vs, funcOrVar v) → loadKsymsVars vs (a, b) = .ok ((funcs vs).reverse ++ a, (vars vs).reverse ++ b)) ∧
    ((∃ v ∈ vs, ¬ funcOrVar v) → loadKsymsVars vs (a, b) = .error .ksymsType) := by
  intro vs
  induction vs with
  | nil => intro a b; exact ⟨fun _ => rfl, fun h => by obtain ⟨v, hv, _⟩ := h; cases hv⟩
  | cons v vs ih =>
    intro a b
    obtain ⟨ty, off⟩ := v
    cases ty with
    | func n =>
      simp only [loadKsymsVars]
      constructor
      · intro h; rw [(ih _ _).1 (fun v hv => h v (List.mem_cons_of_mem _ hv))]; simp [funcs, vars]
      · rintro ⟨v, hv, hb⟩
        rcases List.mem_cons.mp hv with rfl | hv
        · exact absurd (Or.inl ⟨n, rfl⟩) hb
        · exact (ih _ _).2 ⟨v, hv, hb⟩
    | var n t =>
      simp only [loadKsymsVars]
      constructor
      · intro h; rw [(ih _ _).1 (fun v hv => h v (List.mem_cons_of_mem _ hv))]; simp [funcs, vars]
      · rintro ⟨v, hv, hb⟩
        rcases List.mem_cons.mp hv with rfl | hv
        · exact absurd (Or.inr ⟨n, t, rfl⟩) hb
        · exact (ih _ _).2 ⟨v, hv, hb⟩
    | struct s => exact ⟨fun h => (by rcases h _ List.mem_cons_self with ⟨n, e⟩ | ⟨n, t, e⟩ <;> cases e), fun _ => rfl⟩
    | qual s => exact ⟨fun h => (by rcases h _ List.mem_cons_self with ⟨n, e⟩ | ⟨n, t, e⟩ <;> cases e), fun _ => rfl⟩
    | typedef s => exact ⟨fun h => (by rcases h _ List.mem_cons_self with ⟨n, e⟩ | ⟨n, t, e⟩ <;> cases e), fun _ => rfl⟩
    | other s => exact ⟨fun h => (by rcases h _ List.mem_cons_self with ⟨n, e⟩ | ⟨n, t, e⟩ <;> cases e), fun _ => rfl⟩

/-- **C108** `.ksyms` declares functions and variables, looked up by name; a name means its last declaration. Anything else in it is an error. -/
theorem ksyms_exact (f : Bytes → Lookup) (ds : Datasec) (hf : f (nameOf ".ksyms") = .found ds) :
    ((∀ v ∈ ds.vars, funcOrVar v) → ∃ kf ks, loadKsyms (some f) = .ok (kf, ks) ∧ ∀ n, kf.lookup n = lastNamed n (funcs ds.vars) ∧ ks.lookup n = lastNamed n (vars ds.vars)) ∧
    ((∃ v ∈ ds.vars, ¬ funcOrVar v) → ∃ e, loadKsyms (some f) = .error e) := by
  rw [ksymsName_eq] at hf
  have e : loadKsyms (some f) = loadKsymsVars ds.vars ([], []) := by rw [loadKsyms, hf]
  rw [e]
  constructor
  · intro h
    refine ⟨_, _, (loadKsymsVars_eq _ _ _).1 h, fun n => ⟨?_, ?_⟩⟩
    · rw [lookup_reverse]; simp
    · rw [lookup_reverse]; simp
  · intro h; exact ⟨_, (loadKsymsVars_eq _ _ _).2 h⟩

/-- **C108** Without BTF or without `.ksyms` nothing is declared. -/
theorem ksyms_none (btf : Option (Bytes → Lookup)) (h : btf = none ∨ ∃ f, btf = some f ∧ f (nameOf ".ksyms") = .notFound) : loadKsyms btf = .ok ([], []) := by
  rcases h with rfl | ⟨f, rfl, hf⟩
  · rfl
  · rw [ksymsName_eq] at hf
    rw [loadKsyms, hf]

/-! ## the kernel's type -/

theorem findInnerLoop_iff (inner : Bytes) (st : Struct) (off : Nat) : ∀ ms : List (Ty × Nat), findInnerLoop inner ms = some (st, off) ↔
    ∃ pre t post, ms = pre ++ (t, off) :: post ∧ IsStruct t st ∧ st.name = inner ∧ ∀ x ∈ pre, ∀ st', IsStruct x.1 st' → st'.name ≠ inner := by
  intro ms
  induction ms with
  | nil => simp [findInnerLoop]
  | cons m ms ih =>
    obtain ⟨t, o⟩ := m
    rw [findInnerLoop]
    have skip : (∀ st', IsStruct t st' → st'.name ≠ inner) → ((∃ pre t' post, ms = pre ++ (t', off) :: post ∧ IsStruct t' st ∧ st.name = inner ∧ ∀ x ∈ pre, ∀ st', IsStruct x.1 st' → st'.name ≠ inner) ↔
        ∃ pre t' post, (t, o) :: ms = pre ++ (t', off) :: post ∧ IsStruct t' st ∧ st.name = inner ∧ ∀ x ∈ pre, ∀ st', IsStruct x.1 st' → st'.name ≠ inner) := by
      intro hno
      constructor
      · rintro ⟨pre, t', post, rfl, h1, h2, h3⟩
        refine ⟨(t, o) :: pre, t', post, rfl, h1, h2, ?_⟩
        intro x hx
        rcases List.mem_cons.mp hx with rfl | hx
        · exact hno
        · exact h3 x hx
      · rintro ⟨pre, t', post, he, h1, h2, h3⟩
        cases pre with
        | nil => cases he; exact absurd h2 (hno st h1)
        | cons y pre => cases he; exact ⟨pre, t', post, rfl, h1, h2, fun x hx => h3 x (List.mem_cons_of_mem _ hx)⟩
    cases ha : asStruct t with
    | none =>
      simp only [ih]
      exact skip (fun st' h => by rw [asStruct_iff.mpr h] at ha; cases ha)
    | some s0 =>
      simp only
      by_cases hn : s0.name = inner
      · rw [if_pos hn]
        simp only [Option.some.injEq, Prod.mk.injEq]
        constructor
        · rintro ⟨rfl, rfl⟩; exact ⟨[], t, ms, rfl, asStruct_iff.mp ha, hn, by simp⟩
        · rintro ⟨pre, t', post, he, h1, h2, h3⟩
          cases pre with
          | nil => cases he; rw [asStruct_iff.mpr h1] at ha; cases ha; exact ⟨rfl, rfl⟩
          | cons y pre => cases he; exact absurd hn (h3 _ List.mem_cons_self s0 (asStruct_iff.mp ha))
      · rw [if_neg hn, ih]
        exact skip (fun st' h => by rw [asStruct_iff.mpr h] at ha; cases ha; exact hn)

/-- **C108** In the kernel's type `bpf_struct_ops_<name>` the struct `<name>` is found at the offset of the first member of that type. -/
theorem inner_exact (name : Bytes) (size : Nat) (members : List (Ty × Nat)) (st : Struct) (off : Nat) :
    findInner ⟨nameOf "bpf_struct_ops_" ++ name, size, members⟩ = some (st, off) ↔
    ∃ pre t post, members = pre ++ (t, off) :: post ∧ IsStruct t st ∧ st.name = name ∧ ∀ x ∈ pre, ∀ st', IsStruct x.1 st' → st'.name ≠ name := by
  rw [findInner, valuePrefix_eq]
  have : trimPrefix valuePrefix (valuePrefix ++ name) = name := by
    rw [trimPrefix, if_pos (List.isPrefixOf_iff_prefix.mpr (List.prefix_append _ _)), List.drop_left]
  simp only [this]
  exact findInnerLoop_iff name st off members

/-! ## creating the map -/

theorem stillOpen_append (a b : List Ev) (l : List Nat) : stillOpen (a ++ b) l = stillOpen b (stillOpen a l) := by
  induction a generalizing l with
  | nil => rfl
  | cons e a ih => cases e <;> simp only [List.cons_append, stillOpen, ih]

theorem creates_append (a b : List Ev) : creates (a ++ b) = creates a ++ creates b := by
  induction a with
  | nil => rfl
  | cons e a ih => cases e <;> simp only [List.cons_append, creates, ih]

theorem stillOpen_openedList (h : Option Nat) (l : List Nat) : stillOpen (h.toList.map .opened) l = h.toList ++ l := by
  cases h <;> rfl

theorem stillOpen_closedList (h : Option Nat) (l : List Nat) : stillOpen (h.toList.map .closed) l = match h with
    | none => l
    | some x => l.erase x := by
  cases h <;> rfl

theorem creates_lists (h : Option Nat) : creates (h.toList.map .opened) = [] ∧ creates (h.toList.map .closed) = [] := by
  cases h <;> exact ⟨rfl, rfl⟩

theorem mapCreate_spec (kernel : Attr → Except Nat Nat) (a : Attr) (l : List Nat) :
    (∀ fd, (mapCreate kernel a).2 = .ok fd → stillOpen (mapCreate kernel a).1 l = fd :: l ∧ ∃ a', kernel a' = .ok fd ∧ creates (mapCreate kernel a).1 = (if a' = a then [a] else [a, a']) ∧
      (a' = a ∨ a' = { a with btfFd := 0, btfKey := 0, btfValue := 0 })) ∧
    (∀ e, (mapCreate kernel a).2 = .error e → stillOpen (mapCreate kernel a).1 l = l ∧ ∃ n, e = .kernel n) := by
  rw [mapCreate]
  cases hk : kernel a with
  | ok fd =>
    simp only [Except.ok.injEq]
    exact ⟨fun x hx => by subst hx; exact ⟨rfl, a, hk, by simp [creates], Or.inl rfl⟩, fun e he => by cases he⟩
  | error e =>
    simp only
    split
    · rename_i hc
      have hne : ({ a with btfFd := 0, btfKey := 0, btfValue := 0 } : Attr) ≠ a := by
        intro he
        have : (0 : Nat) = a.btfFd := congrArg Attr.btfFd he
        omega
      cases hk2 : kernel { a with btfFd := 0, btfKey := 0, btfValue := 0 } with
      | ok fd =>
        simp only [Except.ok.injEq]
        exact ⟨fun x hx => by subst hx; exact ⟨rfl, _, hk2, by simp [creates, hne], Or.inr rfl⟩, fun e he => by cases he⟩
      | error e2 => exact ⟨fun x hx => (by cases hx), fun e he => (by cases he; exact ⟨rfl, _, rfl⟩)⟩
    · exact ⟨fun x hx => (by cases hx), fun e he => (by cases he; exact ⟨rfl, _, rfl⟩)⟩

/-- **C108** Creating a struct_ops map: the kernel is asked for a map with the size and ID of its own type `bpf_struct_ops_<name>`, and with the descriptor of the module that has it,
if it is in a module; no other descriptor than the map's is open afterwards, whatever the outcome. Struct and descriptors are assumed to be as the kernel makes them: new descriptors are not among the open ones, and
a type that has been found has an ID. BPF_F_VTYPE_BTF_OBJ_FD is 0x8000. Descriptors are not 0 (C43). -/
theorem create_exact (kvFd k v : Nat) (lookup : Bytes → Target) (kernel : Attr → Except Nat Nat) (m : MapSpec) (user : Struct) (hm : m.value = .struct user)
    (st : KStruct) (tid : Nat) (h : Option Nat) (hl : lookup (nameOf "bpf_struct_ops_" ++ user.name) = .found st tid h false) (l : List Nat)
    (hnew : kvFd ∉ h.toList) (hk : ∀ a fd, kernel a = .ok fd → fd ≠ kvFd ∧ fd ∉ h.toList) :
    (∀ fd sz, (createStructOps (.ok kvFd k v) lookup kernel m).2 = .ok (fd, sz) →
      sz = st.size ∧ stillOpen (createStructOps (.ok kvFd k v) lookup kernel m).1 l = fd :: l ∧
      ∃ a ∈ creates (createStructOps (.ok kvFd k v) lookup kernel m).1, kernel a = .ok fd) ∧
    (∀ e, (createStructOps (.ok kvFd k v) lookup kernel m).2 = .error e → (∃ n, e = .kernel n) ∧ stillOpen (createStructOps (.ok kvFd k v) lookup kernel m).1 l = l) ∧
    (∀ a ∈ creates (createStructOps (.ok kvFd k v) lookup kernel m).1,
      a.type = m.type ∧ a.keySize = m.keySize ∧ a.maxEntries = m.maxEntries ∧ a.valueSize = st.size ∧ a.vmlinuxValue = tid ∧ a.btfKey = 0 ∧ a.btfValue = 0 ∧ (a.btfFd = kvFd ∨ a.btfFd = 0) ∧
      ((h = none ∧ a.flags = m.flags ∧ a.objFd = 0) ∨ ∃ x, h = some x ∧ a.flags = m.flags ||| 0x8000 ∧ a.objFd = x)) ∧
    (∃ a rest, creates (createStructOps (.ok kvFd k v) lookup kernel m).1 = a :: rest ∧ a.btfFd = kvFd ∧ rest.length ≤ 1 ∧ (rest ≠ [] → kernel a = .error 524 ∨ kernel a = .error 22)) := by
  rw [valuePrefix_eq] at hl
  have hft : findTarget lookup user = (h.toList.map .opened, .ok (st, tid, h)) := by rw [findTarget, hl]; simp
  have hc : createStructOps (.ok kvFd k v) lookup kernel m = ((.opened kvFd :: h.toList.map .opened ++ (mapCreate kernel (structOpsAttr m kvFd st tid h)).1 ++ h.toList.map .closed ++ [.closed kvFd] : List Ev),
      (mapCreate kernel (structOpsAttr m kvFd st tid h)).2.map fun fd => (fd, st.size)) := by
    rw [createStructOps]
    simp only [hm, hft]
    generalize mapCreate kernel (structOpsAttr m kvFd st tid h) = r
    obtain ⟨evs, r⟩ := r
    cases r <;> rfl
  rw [hc]
  have hopen : stillOpen (.opened kvFd :: h.toList.map .opened ++ (mapCreate kernel (structOpsAttr m kvFd st tid h)).1 ++ h.toList.map .closed ++ [.closed kvFd] : List Ev) l =
      (stillOpen (h.toList.map .closed) (stillOpen (mapCreate kernel (structOpsAttr m kvFd st tid h)).1 (h.toList ++ kvFd :: l))).erase kvFd := by
    simp only [List.cons_append, stillOpen, stillOpen_append, stillOpen_openedList]
  have hcr : creates (.opened kvFd :: h.toList.map .opened ++ (mapCreate kernel (structOpsAttr m kvFd st tid h)).1 ++ h.toList.map .closed ++ [.closed kvFd] : List Ev) =
      creates (mapCreate kernel (structOpsAttr m kvFd st tid h)).1 := by
    simp only [List.cons_append, creates, creates_append, (creates_lists h).1, (creates_lists h).2, List.nil_append, List.append_nil]
  obtain ⟨hok, herr⟩ := mapCreate_spec kernel (structOpsAttr m kvFd st tid h) (h.toList ++ kvFd :: l)
  have hfirst : ∃ rest, creates (mapCreate kernel (structOpsAttr m kvFd st tid h)).1 = structOpsAttr m kvFd st tid h :: rest ∧
      (∀ a ∈ rest, a = { structOpsAttr m kvFd st tid h with btfFd := 0, btfKey := 0, btfValue := 0 }) ∧ rest.length ≤ 1 ∧
      (rest ≠ [] → kernel (structOpsAttr m kvFd st tid h) = .error 524 ∨ kernel (structOpsAttr m kvFd st tid h) = .error 22) := by
    rw [mapCreate]
    split
    · exact ⟨[], rfl, by simp, by simp, by simp⟩
    · rename_i e he
      split
      · rename_i hcond
        have hor : kernel (structOpsAttr m kvFd st tid h) = .error 524 ∨ kernel (structOpsAttr m kvFd st tid h) = .error 22 := by
          rcases hcond.1 with rfl | rfl
          · exact Or.inl he
          · exact Or.inr he
        split
        · exact ⟨_, rfl, by simp [creates], by simp [creates], fun _ => hor⟩
        · exact ⟨_, rfl, by simp [creates], by simp [creates], fun _ => hor⟩
      · exact ⟨[], rfl, by simp, by simp, by simp⟩
  refine ⟨?_, ?_, ?_, ?_⟩
  · intro fd sz hr
    cases hmc : (mapCreate kernel (structOpsAttr m kvFd st tid h)).2 with
    | error e => rw [hmc] at hr; cases hr
    | ok fd' =>
      rw [hmc] at hr
      cases hr
      obtain ⟨h1, a', h2, h3, _⟩ := hok fd hmc
      refine ⟨rfl, ?_, a', ?_, h2⟩
      · rw [hopen, h1, stillOpen_closedList]
        obtain ⟨n1, n2⟩ := hk a' fd h2
        cases h with
        | none => simp only [Option.toList_none, List.nil_append]; rw [List.erase_cons_tail (by simpa using n1), List.erase_cons_head]
        | some x =>
          simp only [Option.toList_some, List.mem_singleton, List.singleton_append] at n2 hnew ⊢
          rw [List.erase_cons_tail (by simpa using n2), List.erase_cons_head, List.erase_cons_tail (by simpa using n1), List.erase_cons_head]
      · rw [hcr, h3]
        split
        · rename_i e; simp [e]
        · simp
  · intro e hr
    cases hmc : (mapCreate kernel (structOpsAttr m kvFd st tid h)).2 with
    | ok fd' => rw [hmc] at hr; cases hr
    | error e' =>
      rw [hmc] at hr
      cases hr
      obtain ⟨h1, h2⟩ := herr e hmc
      refine ⟨h2, ?_⟩
      rw [hopen, h1, stillOpen_closedList]
      cases h with
      | none => simp only [Option.toList_none, List.nil_append, List.erase_cons_head]
      | some x => simp only [Option.toList_some, List.singleton_append, List.erase_cons_head]
  · intro a ha
    rw [hcr] at ha
    obtain ⟨rest, h1, h2, _⟩ := hfirst
    rw [h1] at ha
    rcases List.mem_cons.mp ha with rfl | ha
    · refine ⟨rfl, rfl, rfl, rfl, rfl, rfl, rfl, Or.inl rfl, ?_⟩
      cases h with
      | none => exact Or.inl ⟨rfl, rfl, rfl⟩
      | some x => exact Or.inr ⟨x, rfl, rfl, rfl⟩
    · rw [h2 a ha]
      refine ⟨rfl, rfl, rfl, rfl, rfl, rfl, rfl, Or.inr rfl, ?_⟩
      cases h with
      | none => exact Or.inl ⟨rfl, rfl, rfl⟩
      | some x => exact Or.inr ⟨x, rfl, rfl, rfl⟩
  · rw [hcr]; obtain ⟨rest, h1, _, h3, h4⟩ := hfirst; exact ⟨_, rest, h1, rfl, h3, h4⟩

/-- **C108** If the kernel has no such type (or it can't be looked up) the kernel isn't asked to create a map, nothing stays open, and the error says so. -/
theorem create_unsupported (kvFd k v : Nat) (lookup : Bytes → Target) (kernel : Attr → Except Nat Nat) (m : MapSpec) (user : Struct) (hm : m.value = .struct user) (l : List Nat) :
    (lookup (nameOf "bpf_struct_ops_" ++ user.name) = .notFound → (createStructOps (.ok kvFd k v) lookup kernel m).2 = .error .notSupported ∧
      creates (createStructOps (.ok kvFd k v) lookup kernel m).1 = [] ∧ stillOpen (createStructOps (.ok kvFd k v) lookup kernel m).1 l = l) ∧
    (lookup (nameOf "bpf_struct_ops_" ++ user.name) = .failed → (createStructOps (.ok kvFd k v) lookup kernel m).2 = .error .lookup ∧
      creates (createStructOps (.ok kvFd k v) lookup kernel m).1 = [] ∧ stillOpen (createStructOps (.ok kvFd k v) lookup kernel m).1 l = l) ∧
    ((createStructOps .unsupported lookup kernel m) = ([], .error .requiresBTF) ∧ (createStructOps .failed lookup kernel m) = ([], .error .loadBTF)) := by
  rw [valuePrefix_eq]
  refine ⟨?_, ?_, rfl, rfl⟩
  · intro h
    simp only [createStructOps, hm, findTarget, h]
    exact ⟨trivial, rfl, by simp [stillOpen]⟩
  · intro h
    simp only [createStructOps, hm, findTarget, h]
    exact ⟨trivial, rfl, by simp [stillOpen]⟩

/-! ## examples -/

/-- A struct of eight bytes with a function pointer. -/
def exStruct : Struct := ⟨nameOf "ops", 8, [⟨nameOf "init", 0, 0, some 8, .pointer true⟩]⟩
/-- A Datasec with one variable, behind a typedef. -/
def exDs : Datasec := ⟨16, [⟨.var (nameOf "my") (.typedef (.struct exStruct)), 8⟩]⟩
/-- BTF with this Datasec. -/
def exBtf : Bytes → Lookup := fun n => if n = linkName then .found exDs else .notFound
/-- A section with a relocation at its second half. -/
def exSec : Sec := ⟨linkName, some (List.replicate 8 0#8 ++ List.replicate 8 1#8), fun o => if o = 8 then some (nameOf "prog") else none⟩
/-- A program. -/
def exSt : St := ⟨[], [⟨nameOf "prog", [], true, none⟩]⟩

/-- The variable becomes a map, the program is for its member. -/
example : associate (some exBtf) [exSec] exSt =
    .ok ⟨[(nameOf "my", ⟨nameOf "my", 26, 4, 8, 1, 8192, .struct exStruct, [(0, List.replicate 8 1#8)]⟩)], [⟨nameOf "prog", nameOf "ops:init", true, none⟩]⟩ := by rfl

example : (∀ sec ∈ [exSec], sec.name = linkName) ∧ (∀ sec ∈ [exSec], ∀ data, sec.data = some data → data.length < 2 ^ 32) ∧ (exSt.progs.map (·.name)).Nodup := by
  refine ⟨by intro s hs; simp only [List.mem_singleton] at hs; subst hs; rfl, ?_, by decide⟩
  intro s hs data h
  simp only [List.mem_singleton] at hs; subst hs; cases h; decide

/-- The second of two sections of that name defines the same variable once more. -/
example : associate (some exBtf) [exSec, exSec] exSt = .error .exists := by rfl

/-- Functions and variables. -/
example : funcOrVar ⟨.func (nameOf "f"), 0⟩ ∧ ¬ funcOrVar ⟨.other 0, 0⟩ := by
  refine ⟨Or.inl ⟨_, rfl⟩, ?_⟩
  rintro (⟨n, h⟩ | ⟨n, t, h⟩) <;> cases h

/-- A kernel type in a module. -/
example : ∃ fd, (createStructOps (.ok 5 1 2) (fun _ => .found ⟨nameOf "bpf_struct_ops_ops", 64, []⟩ 77 (some 6) false) (fun a => if a.btfFd = 5 then .ok 9 else .error 1)
    ⟨nameOf "my", 26, 4, 8, 1, 8192, .struct exStruct, []⟩).2 = .ok (fd, 64) := ⟨9, rfl⟩

/-- Offsets of the inner struct. -/
example : findInner ⟨nameOf "bpf_struct_ops_ops", 64, [(.other 0, 0), (.qual (.struct exStruct), 8)]⟩ = some (exStruct, 8) := by rfl

end Ebpf.ElfVirtual
