import Verif.Spec.DataSections
import Verif.Props.ElfLoad
import Verif.Props.DataSection
/-!
# C80: global variables of an object
-/
namespace Ebpf.DataSec
open Ebpf.DataSecSpec

theorem assign_mem (idx : Nat) : ∀ (syms : List Sym) (m : List (BitVec 64 × Sym)) (e : BitVec 64 × Sym),
    e ∈ assignSymbols idx syms m ↔
      (e.1 = e.2.value ∧ ∃ pre post, syms = pre ++ e.2 :: post ∧ Counts e.2 idx ∧ ∀ s' ∈ post, Counts s' idx → s'.value ≠ e.2.value) ∨
      (e ∈ m ∧ ∀ s' ∈ syms, Counts s' idx → s'.value ≠ e.1)
  | [], m, e => by
    simp only [assignSymbols]
    constructor
    · intro h; exact .inr ⟨h, (by intro s' hs; cases hs)⟩
    · rintro (⟨_, pre, post, h, _⟩ | ⟨h, _⟩)
      · cases pre <;> cases h
      · exact h
  | s :: r, m, e => by
    unfold assignSymbols
    have hsplit : ∀ (Q : List Sym → Prop), (∃ pre post, s :: r = pre ++ e.2 :: post ∧ Q post) ↔ (s = e.2 ∧ Q r) ∨ ∃ pre post, r = pre ++ e.2 :: post ∧ Q post := by
      intro Q
      constructor
      · rintro ⟨pre, post, h, hq⟩
        cases pre with
        | nil => cases h; exact .inl ⟨rfl, hq⟩
        | cons x pre => cases h; exact .inr ⟨pre, post, rfl, hq⟩
      · rintro (⟨h, hq⟩ | ⟨pre, post, h, hq⟩)
        · exact ⟨[], r, by rw [h]; rfl, hq⟩
        · exact ⟨s :: pre, post, by rw [h]; rfl, hq⟩
    split
    · rename_i hc
      rw [assign_mem idx r]
      rw [show (∃ pre post, s :: r = pre ++ e.2 :: post ∧ Counts e.2 idx ∧ ∀ s' ∈ post, Counts s' idx → s'.value ≠ e.2.value) ↔ _ from hsplit _]
      constructor
      · rintro (⟨h1, h2⟩ | ⟨h1, h2⟩)
        · exact .inl ⟨h1, .inr h2⟩
        · rcases List.mem_cons.mp h1 with h1 | h1
          · left
            have e1 : e.1 = s.value := by rw [h1]
            have e2 : e.2 = s := by rw [h1]
            refine ⟨by rw [e1, e2], .inl ⟨e2.symm, by rw [e2]; exact hc, ?_⟩⟩
            rw [e2, ← e1]; exact h2
          · right
            obtain ⟨h3, h4⟩ := List.mem_filter.mp h1
            refine ⟨h3, fun s' hs' hcs => ?_⟩
            rcases List.mem_cons.mp hs' with x | x
            · rw [x]; intro y; exact (of_decide_eq_true h4) y.symm
            · exact h2 s' x hcs
      · rintro (⟨h1, ⟨h2, _, h4⟩ | h2⟩ | ⟨h1, h2⟩)
        · right
          refine ⟨List.mem_cons.mpr (.inl ?_), by rw [h1]; exact h4⟩
          rw [h2, ← h1]
        · exact .inl ⟨h1, h2⟩
        · right
          refine ⟨List.mem_cons.mpr (.inr (List.mem_filter.mpr ⟨h1, ?_⟩)), fun s' hs' => h2 s' (List.mem_cons_of_mem _ hs')⟩
          exact decide_eq_true (fun y => h2 s List.mem_cons_self hc y.symm)
    · rename_i hc
      rw [assign_mem idx r]
      rw [show (∃ pre post, s :: r = pre ++ e.2 :: post ∧ Counts e.2 idx ∧ ∀ s' ∈ post, Counts s' idx → s'.value ≠ e.2.value) ↔ _ from hsplit _]
      constructor
      · rintro (⟨h1, h2⟩ | ⟨h1, h2⟩)
        · exact .inl ⟨h1, .inr h2⟩
        · refine .inr ⟨h1, fun s' hs' hcs => ?_⟩
          rcases List.mem_cons.mp hs' with x | x
          · rw [x] at hcs; exact absurd hcs hc
          · exact h2 s' x hcs
      · rintro (⟨h1, ⟨h2, h3, _⟩ | h2⟩ | ⟨h1, h2⟩)
        · rw [← h2] at h3; exact absurd h3 hc
        · exact .inl ⟨h1, h2⟩
        · exact .inr ⟨h1, fun s' hs' => h2 s' (List.mem_cons_of_mem _ hs')⟩

theorem assign_stands (o : Object) (idx : Nat) (e : BitVec 64 × Sym) : e ∈ assignSymbols idx o.syms [] ↔ e.1 = e.2.value ∧ StandsFor o idx e.2 := by
  rw [assign_mem]
  constructor
  · rintro (h | ⟨h, _⟩)
    · exact h
    · cases h
  · exact .inl

/-- Does the symbol become a variable? -/
def exported (e : BitVec 64 × Sym) : Bool := !e.2.hidden && (e.2.bind = .glob || e.2.bind = .weak) && !startsWithDot e.2.name

theorem exported_iff (e : BitVec 64 × Sym) : exported e = true ↔ Exported e.2 := by
  simp only [exported, Exported, startsWithDot, Bool.and_eq_true, Bool.not_eq_true', Bool.or_eq_true, decide_eq_true_eq, decide_eq_false_iff_not, and_assoc, ne_eq]

/-- The variable of a symbol. -/
def varOf (sec : Sec) (data : Bytes) (e : BitVec 64 × Sym) : String × VarSpec := (e.2.name, ⟨sec.name, e.1.setWidth 32, slice data e.1 e.2.size, none⟩)

/-- Inside its section. -/
def Inside (data : Bytes) (e : BitVec 64 × Sym) : Prop := e.1.toNat + e.2.size.toNat ≤ data.length ∧ e.1.toNat < 2 ^ 32 ∧ e.2.size.toNat < 2 ^ 32

theorem lookup_none_keys {β : Type} : ∀ {l : List (String × β)} {n : String}, (l.lookup n).isSome = false ↔ n ∉ l.map Prod.fst
  | [], n => by simp
  | (k, v) :: l, n => by
    rw [List.lookup_cons, List.map_cons, List.mem_cons]
    by_cases h : n = k
    · subst h; simp
    · have : (n == k) = false := by simpa using h
      rw [this]
      simp only [h, false_or]
      exact lookup_none_keys

theorem addVars_ok (sec : Sec) (data : Bytes) : ∀ (l : List (BitVec 64 × Sym)) (vars vars' : List (String × VarSpec)), addVars sec data l vars = .ok vars' →
    vars' = vars ++ (l.filter exported).map (varOf sec data) ∧ (∀ e ∈ l, exported e = true → Inside data e) ∧ ((vars.map Prod.fst).Nodup → (vars'.map Prod.fst).Nodup)
  | [], vars, vars', h => by
    cases h
    exact ⟨by simp, (by intro e he; cases he), id⟩
  | (off, s) :: r, vars, vars', h => by
    have skip : exported (off, s) = false → addVars sec data r vars = .ok vars' →
        vars' = vars ++ (((off, s) :: r).filter exported).map (varOf sec data) ∧ (∀ e ∈ (off, s) :: r, exported e = true → Inside data e) ∧ ((vars.map Prod.fst).Nodup → (vars'.map Prod.fst).Nodup) := by
      intro hne hr
      obtain ⟨h1, h2, h3⟩ := addVars_ok sec data r vars vars' hr
      refine ⟨by rw [List.filter_cons_of_neg (by rw [hne]; simp)]; exact h1, fun e he hex => ?_, h3⟩
      rcases List.mem_cons.mp he with x | x
      · rw [x, hne] at hex; cases hex
      · exact h2 e x hex
    unfold addVars at h
    split at h
    · rename_i hh
      exact skip (by simp [exported, hh]) h
    · rename_i hh
      split at h
      · rename_i hb
        exact skip (by simp [exported, hb.1, hb.2]) h
      · rename_i hb
        split at h
        · cases h
        · rename_i hdup
          split at h
          · rename_i hd
            exact skip (by simp [exported, hd]) h
          · rename_i hd
            split at h
            · cases h
            · rename_i hbo
              split at h
              · cases h
              · rename_i hof
                split at h
                · cases h
                · rename_i hsz
                  have hex : exported (off, s) = true := by
                    have hb' : s.bind = .glob ∨ s.bind = .weak := by
                      by_cases x : s.bind = .glob
                      · exact .inl x
                      · exact .inr (by
                          by_cases y : s.bind = .weak
                          · exact y
                          · exact absurd ⟨x, y⟩ hb)
                    simp only [exported, Bool.and_eq_true, Bool.not_eq_true', Bool.or_eq_true, decide_eq_true_eq]
                    exact ⟨⟨by simpa using hh, hb'⟩, by simpa using hd⟩
                  obtain ⟨h1, h2, h3⟩ := addVars_ok sec data r _ vars' h
                  refine ⟨?_, fun e he hexe => ?_, fun hnd => h3 ?_⟩
                  · rw [List.filter_cons_of_pos hex, List.map_cons, h1, List.append_assoc]
                    rfl
                  · rcases List.mem_cons.mp he with x | x
                    · rw [x]
                      refine ⟨?_, by simp only; omega, by simp only; omega⟩
                      show off.toNat + s.size.toNat ≤ data.length
                      have : (off + s.size).toNat = off.toNat + s.size.toNat := by
                        rw [BitVec.toNat_add]
                        omega
                      omega
                    · exact h2 e x hexe
                  · rw [List.map_append, List.nodup_append]
                    refine ⟨hnd, by simp, fun a ha b hb2 => ?_⟩
                    have hdup' : (vars.lookup s.name).isSome = false := by
                      cases hx : (vars.lookup s.name).isSome with
                      | false => rfl
                      | true => exact absurd hx hdup
                    have := lookup_none_keys.mp hdup'
                    simp only [List.map_cons, List.map_nil, List.mem_singleton] at hb2
                    rw [hb2]
                    intro x; rw [x] at ha; exact this ha

/-- Without its type. -/
def erase (e : String × VarSpec) : String × VarSpec := (e.1, { e.2 with typ := none })

theorem setType_erase (n : String) (t : Nat) : ∀ (vars : List (String × VarSpec)), (setType n t vars).map erase = vars.map erase
  | [] => rfl
  | (k, v) :: r => by
    unfold setType
    split
    · rfl
    · rw [List.map_cons, List.map_cons, setType_erase n t r]

theorem setType_lookup (n : String) (t : Nat) : ∀ (vars : List (String × VarSpec)) (m : String), (setType n t vars).lookup m = if m = n then (vars.lookup m).map (fun v => { v with typ := some t }) else vars.lookup m
  | [], m => by simp [setType]
  | (k, v) :: r, m => by
    unfold setType
    by_cases hk : k = n
    · rw [if_pos hk, List.lookup_cons, List.lookup_cons]
      by_cases hm : m = k
      · have : (m == k) = true := by simpa using hm
        rw [this, if_pos (hm.trans hk)]; rfl
      · have : (m == k) = false := by simpa using hm
        rw [this, if_neg (fun x => hm (x.trans hk.symm))]
    · rw [if_neg hk, List.lookup_cons, List.lookup_cons, setType_lookup n t r m]
      by_cases hm : m = k
      · have h1 : (m == k) = true := by simpa using hm
        have h2 : ¬ m = n := fun x => hk (hm.symm.trans x)
        simp only [h1, h2, if_false]
      · have h1 : (m == k) = false := by simpa using hm
        simp only [h1]

theorem addTypes_erase : ∀ (ds : List DVar) (vars vars' : List (String × VarSpec)), addTypes ds vars = .ok vars' → vars'.map erase = vars.map erase
  | [], vars, vars', h => by cases h; rfl
  | d :: r, vars, vars', h => by
    unfold addTypes at h
    split at h
    · cases h
    · split at h
      · cases h
      · split at h
        · exact addTypes_erase r vars vars' h
        · split at h
          · cases h
          · split at h
            · cases h
            · rw [addTypes_erase r _ vars' h, setType_erase]

/-- The record describes the variable. -/
def Describes (d : DVar) (n : String) (v : VarSpec) : Prop := d.name = n ∧ d.isVar = true ∧ v.typ = some d.typ ∧ d.offset = v.offset ∧ d.size = BitVec.ofNat 32 v.value.length

theorem addTypes_typ : ∀ (ds : List DVar) (vars vars' : List (String × VarSpec)), addTypes ds vars = .ok vars' → ∀ n v', vars'.lookup n = some v' →
    ((∀ d ∈ ds, d.name ≠ n) ∧ vars.lookup n = some v') ∨ ∃ d ∈ ds, Describes d n v'
  | [], vars, vars', h, n, v', hl => by
    cases h
    exact .inl ⟨(by intro d hd; cases hd), hl⟩
  | d :: r, vars, vars', h, n, v', hl => by
    unfold addTypes at h
    split at h
    · cases h
    · split at h
      · cases h
      · rename_i hiv
        split at h
        · rename_i hnone
          rcases addTypes_typ r vars vars' h n v' hl with ⟨h1, h2⟩ | ⟨d', h1, h2⟩
          · refine .inl ⟨fun d' hd' => ?_, h2⟩
            rcases List.mem_cons.mp hd' with x | x
            · rw [x]; intro y; rw [y, h2] at hnone; cases hnone
            · exact h1 d' x
          · exact .inr ⟨d', List.mem_cons_of_mem _ h1, h2⟩
        · rename_i ev hev
          split at h
          · cases h
          · rename_i hoff
            split at h
            · cases h
            · rename_i hsz
              rcases addTypes_typ r _ vars' h n v' hl with ⟨h1, h2⟩ | ⟨d', h1, h2⟩
              · rw [setType_lookup] at h2
                by_cases hn : n = d.name
                · rw [if_pos hn, hn, hev] at h2
                  right
                  refine ⟨d, List.mem_cons_self, hn.symm, by simpa using hiv, ?_⟩
                  have : { ev with typ := some d.typ } = v' := Option.some.inj h2
                  rw [← this]
                  exact ⟨rfl, Decidable.not_not.mp hoff, Decidable.not_not.mp hsz⟩
                · rw [if_neg hn] at h2
                  refine .inl ⟨fun d' hd' => ?_, h2⟩
                  rcases List.mem_cons.mp hd' with x | x
                  · rw [x]; exact fun y => hn y.symm
                  · exact h1 d' x
              · exact .inr ⟨d', List.mem_cons_of_mem _ h1, h2⟩

/-- The variables a section contributes. -/
def gen (e : Sec × List (BitVec 64 × Sym)) : List (String × VarSpec) :=
  match contents e.1 with
  | .ok d => (e.2.filter exported).map (varOf e.1 d)
  | .error _ => []

/-- The section becomes a map. -/
def used (e : Sec × List (BitVec 64 × Sym)) : Prop := ¬ (e.1.references = 0 ∧ e.2 = [])

theorem varOf_erase (sec : Sec) (d : Bytes) (l : List (BitVec 64 × Sym)) : (l.map (varOf sec d)).map erase = l.map (varOf sec d) := by
  rw [List.map_map]
  rfl

theorem erase_keys (l : List (String × VarSpec)) : (l.map erase).map Prod.fst = l.map Prod.fst := by
  rw [List.map_map]; rfl

/-- What one turn of the loop does. -/
theorem loadSection_ok {btf : String → Option (List DVar)} {sec : Sec} {symbols : List (BitVec 64 × Sym)} {st st' : List (String × MapSpec) × List (String × VarSpec)}
    (h : loadSection btf sec symbols st = .ok st') :
    (¬ used (sec, symbols) ∧ st' = st) ∨
    (used (sec, symbols) ∧ ∃ d vars, contents sec = .ok d ∧ sec.size.toNat < 2 ^ 32 ∧ addVars sec d symbols st.2 = .ok vars ∧
      st'.1 = st.1 ++ [(sec.name, ⟨sec.size.setWidth 32, isConstant sec.name, d, (btf sec.name).isSome⟩)] ∧
      ((btf sec.name = none ∧ st'.2 = vars) ∨ ∃ ds, btf sec.name = some ds ∧ addTypes ds vars = .ok st'.2)) := by
  unfold loadSection at h
  split at h
  · rename_i hu
    cases h
    exact .inl ⟨fun x => x hu, rfl⟩
  · rename_i hu
    right
    refine ⟨hu, ?_⟩
    split at h
    · cases h
    · rename_i hsz
      split at h
      · cases h
      · rename_i d hd
        split at h
        · cases h
        · rename_i vars hv
          split at h
          · rename_i hb
            cases h
            exact ⟨d, vars, hd, by omega, hv, by rw [hb]; rfl, .inl ⟨hb, rfl⟩⟩
          · rename_i ds hb
            split at h
            · cases h
            · rename_i vars' ht
              cases h
              exact ⟨d, vars, hd, by omega, hv, by rw [hb]; rfl, .inr ⟨ds, hb, ht⟩⟩

/-- What the loop does. -/
theorem loadSections_ok (btf : String → Option (List DVar)) : ∀ (l : List (Sec × List (BitVec 64 × Sym))) (st st' : List (String × MapSpec) × List (String × VarSpec)),
    loadSections btf l st = .ok st' →
    st'.2.map erase = st.2.map erase ++ l.flatMap gen ∧
    ((st.2.map Prod.fst).Nodup → (st'.2.map Prod.fst).Nodup) ∧
    (∀ e ∈ l, used e → ∃ d, contents e.1 = .ok d ∧ e.1.size.toNat < 2 ^ 32 ∧ ∀ x ∈ e.2, exported x = true → Inside d x) ∧
    (∀ p, p ∈ st'.1 ↔ p ∈ st.1 ∨ ∃ e ∈ l, used e ∧ ∃ d, contents e.1 = .ok d ∧ p = (e.1.name, ⟨e.1.size.setWidth 32, isConstant e.1.name, d, (btf e.1.name).isSome⟩))
  | [], st, st', h => by
    cases h
    exact ⟨by simp, id, (by intro e he; cases he), fun p => ⟨.inl, by rintro (h | ⟨e, he, _⟩); exact h; cases he⟩⟩
  | (sec, symbols) :: r, st, st'', h => by
    unfold loadSections at h
    split at h
    · cases h
    · rename_i st' hs
      obtain ⟨i1, i2, i3, i4⟩ := loadSections_ok btf r st' st'' h
      rcases loadSection_ok hs with ⟨hu, rfl⟩ | ⟨hu, d, vars, hd, hsz, hv, hm, ht⟩
      · have hem : symbols = [] := (Decidable.not_not.mp hu).2
        refine ⟨?_, i2, fun e he hue => ?_, fun p => ?_⟩
        · rw [i1, List.flatMap_cons]
          have : gen (sec, symbols) = [] := by
            unfold gen; rw [hem]; split <;> rfl
          rw [this]; rfl
        · rcases List.mem_cons.mp he with x | x
          · rw [x] at hue; exact absurd hue hu
          · exact i3 e x hue
        · rw [i4]
          constructor
          · rintro (x | ⟨e, he, y⟩)
            · exact .inl x
            · exact .inr ⟨e, List.mem_cons_of_mem _ he, y⟩
          · rintro (x | ⟨e, he, y⟩)
            · exact .inl x
            · rcases List.mem_cons.mp he with z | z
              · rw [z] at y; exact absurd y.1 hu
              · exact .inr ⟨e, z, y⟩
      · obtain ⟨a1, a2, a3⟩ := addVars_ok sec d symbols st.2 vars hv
        have her : st'.2.map erase = vars.map erase := by
          rcases ht with ⟨_, ht⟩ | ⟨ds, _, ht⟩
          · rw [ht]
          · exact addTypes_erase ds vars _ ht
        have hg : gen (sec, symbols) = (symbols.filter exported).map (varOf sec d) := by
          unfold gen; simp only [hd]
        refine ⟨?_, fun hnd => i2 ?_, fun e he hue => ?_, fun p => ?_⟩
        · rw [i1, her, a1, List.map_append, varOf_erase, List.flatMap_cons, hg, List.append_assoc]
        · rw [← erase_keys, her, erase_keys]; exact a3 hnd
        · rcases List.mem_cons.mp he with x | x
          · rw [x]; exact ⟨d, hd, hsz, a2⟩
          · exact i3 e x hue
        · rw [i4, hm]
          constructor
          · rintro (x | ⟨e, he, y⟩)
            · rcases List.mem_append.mp x with x | x
              · exact .inl x
              · exact .inr ⟨(sec, symbols), List.mem_cons_self, hu, d, hd, List.mem_singleton.mp x⟩
            · exact .inr ⟨e, List.mem_cons_of_mem _ he, y⟩
          · rintro (x | ⟨e, he, y⟩)
            · exact .inl (List.mem_append_left _ x)
            · rcases List.mem_cons.mp he with z | z
              · rw [z] at y
                obtain ⟨_, d', hd', y⟩ := y
                rw [hd] at hd'
                cases hd'
                exact .inl (List.mem_append_right _ (by rw [y]; exact List.mem_singleton.mpr rfl))
              · exact .inr ⟨e, z, y⟩

theorem contents_holds (sec : Sec) (d : Bytes) : contents sec = .ok d ↔ Holds sec d := by
  unfold contents Holds
  cases sec.type with
  | progbits =>
    cases hd : sec.data with
    | none => simp
    | some x => simp
  | nobits => simp [eq_comm]
  | other => simp

theorem used_iff {o : Object} {l : List (Sec × List (BitVec 64 × Sym))} (hl : Order o l) {e : Sec × List (BitVec 64 × Sym)} (he : e ∈ l) : used e ↔ Used o e.1 := by
  unfold used Used
  have hp := hl.syms e he
  constructor
  · intro h
    by_cases hr : e.1.references = 0
    · right
      cases h2 : e.2 with
      | nil => exact absurd ⟨hr, h2⟩ h
      | cons x xs =>
        have hx : x ∈ assignSymbols e.1.idx o.syms [] := hp.subset (by rw [h2]; exact List.mem_cons_self)
        exact ⟨x.2, ((assign_stands o e.1.idx x).mp hx).2⟩
    · exact .inl hr
  · rintro (h | ⟨s, hs⟩) ⟨h1, h2⟩
    · exact h h1
    · have hx : (s.value, s) ∈ assignSymbols e.1.idx o.syms [] := (assign_stands o e.1.idx (s.value, s)).mpr ⟨rfl, hs⟩
      have := hp.symm.subset hx
      rw [h2] at this
      cases this

theorem order_mem {o : Object} {l : List (Sec × List (BitVec 64 × Sym))} (hl : Order o l) {sec : Sec} : sec ∈ o.secs ↔ ∃ e ∈ l, e.1 = sec := by
  rw [← hl.secs.mem_iff, List.mem_map]

theorem order_sym {o : Object} {l : List (Sec × List (BitVec 64 × Sym))} (hl : Order o l) {e : Sec × List (BitVec 64 × Sym)} (he : e ∈ l) (x : BitVec 64 × Sym) :
    x ∈ e.2 ↔ x.1 = x.2.value ∧ StandsFor o e.1.idx x.2 := by
  rw [(hl.syms e he).mem_iff, assign_stands]

theorem mem_gen {o : Object} {l : List (Sec × List (BitVec 64 × Sym))} (hl : Order o l) (n : String) (v : VarSpec) :
    (n, v) ∈ l.flatMap gen ↔ ∃ e ∈ l, ∃ d, Holds e.1 d ∧ ∃ s, StandsFor o e.1.idx s ∧ Exported s ∧ n = s.name ∧ v = ⟨e.1.name, s.value.setWidth 32, slice d s.value s.size, none⟩ := by
  rw [List.mem_flatMap]
  constructor
  · rintro ⟨e, he, h⟩
    unfold gen at h
    cases hc : contents e.1 with
    | error x => rw [hc] at h; cases h
    | ok d =>
      rw [hc] at h
      obtain ⟨x, hx, hv⟩ := List.mem_map.mp h
      obtain ⟨hx1, hx2⟩ := List.mem_filter.mp hx
      obtain ⟨h1, h2⟩ := (order_sym hl he x).mp hx1
      unfold varOf at hv
      rw [h1] at hv
      injection hv with hv1 hv2
      exact ⟨e, he, d, (contents_holds _ _).mp hc, x.2, h2, (exported_iff x).mp hx2, hv1.symm, hv2.symm⟩
  · rintro ⟨e, he, d, hd, s, hs, hex, rfl, rfl⟩
    refine ⟨e, he, ?_⟩
    unfold gen
    rw [(contents_holds _ _).mpr hd]
    refine List.mem_map.mpr ⟨(s.value, s), List.mem_filter.mpr ⟨(order_sym hl he _).mpr ⟨rfl, hs⟩, (exported_iff _).mpr hex⟩, rfl⟩

theorem slice_eq (d : Bytes) (off size : BitVec 64) (h : off.toNat + size.toNat ≤ d.length) (h1 : off.toNat < 2 ^ 32) (h2 : size.toNat < 2 ^ 32) :
    slice d off size = (d.drop off.toNat).take size.toNat := by
  unfold slice
  have : (off + size).toNat = off.toNat + size.toNat := by rw [BitVec.toNat_add]; omega
  rw [this, List.drop_take]
  congr 1; omega

theorem lookup_of_nodup {β : Type} : ∀ {l : List (String × β)} {n : String} {v : β}, (l.map Prod.fst).Nodup → ((n, v) ∈ l ↔ l.lookup n = some v)
  | [], n, v, _ => by simp
  | (k, w) :: l, n, v, hnd => by
    rw [List.map_cons, List.nodup_cons] at hnd
    rw [List.lookup_cons, List.mem_cons]
    by_cases h : n = k
    · have : (n == k) = true := by simpa using h
      simp only [this]
      constructor
      · rintro (x | x)
        · injection x with _ x; rw [x]
        · exact absurd (List.mem_map.mpr ⟨_, x, h⟩) hnd.1
      · intro x; cases x; exact .inl (by rw [h])
    · have : (n == k) = false := by simpa using h
      simp only [this]
      rw [← lookup_of_nodup hnd.2]
      constructor
      · rintro (x | x)
        · injection x with x _; exact absurd x h
        · exact x
      · exact .inr

/-- **C80.** The variables are exactly the exported symbols: each has the name of its symbol, its section, its address in the section and the bytes found there, and no two
have the same name. -/
theorem variables_exact (o : Object) (l : List (Sec × List (BitVec 64 × Sym))) (hl : Order o l) (maps : List (String × MapSpec)) (vars : List (String × VarSpec))
    (h : loadSections o.btf l ([], []) = .ok (maps, vars)) :
    (vars.map Prod.fst).Nodup ∧
    (∀ sec s bytes, HasVar o sec s bytes → ∃ v, vars.lookup s.name = some v ∧ v.sec = sec.name ∧ v.offset.toNat = s.value.toNat ∧ v.value = bytes) ∧
    (∀ n v, vars.lookup n = some v → ∃ sec s, HasVar o sec s v.value ∧ s.name = n ∧ v.sec = sec.name ∧ v.offset.toNat = s.value.toNat ∧ v.value.length = s.size.toNat) := by
  obtain ⟨h1, h2, h3, _⟩ := loadSections_ok o.btf l ([], []) (maps, vars) h
  have hnd : (vars.map Prod.fst).Nodup := h2 List.nodup_nil
  have hvars : vars.map erase = l.flatMap gen := by simpa using h1
  have hins : ∀ e ∈ l, ∀ s, StandsFor o e.1.idx s → Exported s → ∀ d, Holds e.1 d → Inside d (s.value, s) := by
    intro e he s hs hex d hd
    have hu : used e := (used_iff hl he).mpr (.inr ⟨s, hs⟩)
    obtain ⟨d', hd', _, hi⟩ := h3 e he hu
    rw [(contents_holds _ _).mpr hd] at hd'
    cases hd'
    exact hi _ ((order_sym hl he (s.value, s)).mpr ⟨rfl, hs⟩) ((exported_iff _).mpr hex)
  refine ⟨hnd, ?_, ?_⟩
  · rintro sec s bytes ⟨hsec, hs, hex, d, hd, hb, rfl⟩
    obtain ⟨e, he, rfl⟩ := (order_mem hl).mp hsec
    obtain ⟨i1, i2, i3⟩ := hins e he s hs hex d hd
    have hm : (s.name, (⟨e.1.name, s.value.setWidth 32, slice d s.value s.size, none⟩ : VarSpec)) ∈ vars.map erase := by
      rw [hvars, mem_gen hl]
      exact ⟨e, he, d, hd, s, hs, hex, rfl, rfl⟩
    obtain ⟨⟨n, v⟩, hv, hve⟩ := List.mem_map.mp hm
    have e1 : n = s.name := congrArg Prod.fst hve
    have e2 : v.sec = e.1.name := congrArg (fun p => p.2.sec) hve
    have e3 : v.offset = s.value.setWidth 32 := congrArg (fun p => p.2.offset) hve
    have e4 : v.value = slice d s.value s.size := congrArg (fun p => p.2.value) hve
    refine ⟨v, (lookup_of_nodup hnd).mp (by rw [← e1]; exact hv), e2, ?_, ?_⟩
    · rw [e3, BitVec.toNat_setWidth]; exact Nat.mod_eq_of_lt i2
    · rw [e4]; exact slice_eq d _ _ i1 i2 i3
  · intro n v hv
    have hm : erase (n, v) ∈ l.flatMap gen := by
      rw [← hvars]; exact List.mem_map.mpr ⟨(n, v), (lookup_of_nodup hnd).mpr hv, rfl⟩
    obtain ⟨e, he, d, hd, s, hs, hex, hn, hve⟩ := (mem_gen hl _ _).mp hm
    obtain ⟨i1, i2, i3⟩ := hins e he s hs hex d hd
    have e2 : v.sec = e.1.name := congrArg (fun p => p.sec) hve
    have e3 : v.offset = s.value.setWidth 32 := congrArg (fun p => p.offset) hve
    have e4 : v.value = slice d s.value s.size := congrArg (fun p => p.value) hve
    rw [slice_eq d _ _ i1 i2 i3] at e4
    refine ⟨e.1, s, ⟨(order_mem hl).mpr ⟨e, he, rfl⟩, hs, hex, d, hd, i1, e4⟩, hn.symm, e2, ?_, ?_⟩
    · rw [e3, BitVec.toNat_setWidth]; exact Nat.mod_eq_of_lt i2
    · rw [e4, List.length_take, List.length_drop]
      have i1' : s.value.toNat + s.size.toNat ≤ d.length := i1
      show min s.size.toNat (d.length - s.value.toNat) = s.size.toNat
      omega

/-- **C80.** The maps are exactly the sections in use, with the section's bytes as the only value, read-only to programs if the section's name starts with `.rodata`. -/
theorem maps_exact (o : Object) (l : List (Sec × List (BitVec 64 × Sym))) (hl : Order o l) (maps : List (String × MapSpec)) (vars : List (String × VarSpec))
    (h : loadSections o.btf l ([], []) = .ok (maps, vars)) (n : String) (m : MapSpec) :
    (n, m) ∈ maps ↔ ∃ sec ∈ o.secs, Used o sec ∧ sec.name = n ∧ Holds sec m.contents ∧ m.valueSize.toNat = sec.size.toNat ∧
      (m.rdonly = true ↔ ".rodata".toList <+: n.toList) ∧ (m.btf = true ↔ ∃ ds, o.btf n = some ds) := by
  obtain ⟨_, _, h3, h4⟩ := loadSections_ok o.btf l ([], []) (maps, vars) h
  have hrd : ∀ n : String, isConstant n = true ↔ ".rodata".toList <+: n.toList := by
    intro n; unfold isConstant; rw [List.isPrefixOf_iff_prefix]; rfl
  rw [h4]
  constructor
  · rintro (x | ⟨e, he, hu, d, hd, hp⟩)
    · cases x
    · obtain ⟨d', hd', hsz, _⟩ := h3 e he hu
      injection hp with hp1 hp2
      rw [hp1, hp2]
      refine ⟨e.1, (order_mem hl).mpr ⟨e, he, rfl⟩, (used_iff hl he).mp hu, rfl, (contents_holds _ _).mp hd, ?_, hrd _, ?_⟩
      · show (BitVec.setWidth 32 e.1.size).toNat = _
        rw [BitVec.toNat_setWidth]; exact Nat.mod_eq_of_lt hsz
      · exact Option.isSome_iff_exists
  · rintro ⟨sec, hsec, hu, hn, hh, hv, hr, hb⟩
    obtain ⟨e, he, rfl⟩ := (order_mem hl).mp hsec
    right
    have hu' := (used_iff hl he).mpr hu
    obtain ⟨d', hd', hsz, _⟩ := h3 e he hu'
    refine ⟨e, he, hu', m.contents, (contents_holds _ _).mpr hh, ?_⟩
    rw [← hn] at hr hb ⊢
    congr 1
    have e1 : m.valueSize = e.1.size.setWidth 32 := by
      apply BitVec.eq_of_toNat_eq
      rw [hv, BitVec.toNat_setWidth]; exact (Nat.mod_eq_of_lt hsz).symm
    have e2 : m.rdonly = isConstant e.1.name := by
      rw [Bool.eq_iff_iff, hr, hrd]
    have e3 : m.btf = (o.btf e.1.name).isSome := by
      rw [Bool.eq_iff_iff, hb, Option.isSome_iff_exists]
    rw [← e1, ← e2, ← e3]

theorem lookup_keys {β : Type} {l : List (String × β)} {n : String} : (∃ v, l.lookup n = some v) ↔ n ∈ l.map Prod.fst := by
  rw [← Option.isSome_iff_exists]
  constructor
  · intro h
    apply Decidable.byContradiction
    intro hn
    rw [lookup_none_keys.mpr hn] at h
    cases h
  · intro h
    cases hx : (l.lookup n).isSome with
    | true => rfl
    | false => exact absurd h (lookup_none_keys.mp hx)

/-- Types come from some Datasec. -/
theorem typed_sound (btf : String → Option (List DVar)) : ∀ (l : List (Sec × List (BitVec 64 × Sym))) (st st' : List (String × MapSpec) × List (String × VarSpec)),
    loadSections btf l st = .ok st' → ∀ n v, st'.2.lookup n = some v →
    v.typ = none ∨ st.2.lookup n = some v ∨ ∃ e ∈ l, ∃ ds, btf e.1.name = some ds ∧ ∃ d ∈ ds, Describes d n v
  | [], st, st', h, n, v, hv => by cases h; exact .inr (.inl hv)
  | (sec, symbols) :: r, st, st'', h, n, v, hv => by
    unfold loadSections at h
    split at h
    · cases h
    · rename_i st' hs
      rcases typed_sound btf r st' st'' h n v hv with x | x | ⟨e, he, x⟩
      · exact .inl x
      · rcases loadSection_ok hs with ⟨_, rfl⟩ | ⟨_, d, vars, _, _, ha, _, ht⟩
        · exact .inr (.inl x)
        · have hvars : vars.lookup n = some v → v.typ = none ∨ st.2.lookup n = some v := by
            intro hl
            rw [(addVars_ok sec d symbols st.2 vars ha).1, List.lookup_append] at hl
            cases hst : st.2.lookup n with
            | some w => rw [hst] at hl; exact .inr hl
            | none =>
              rw [hst] at hl
              have hm := Elf.lookup_pair hl
              obtain ⟨y, _, hy⟩ := List.mem_map.mp hm
              unfold varOf at hy
              injection hy with _ hy
              rw [← hy]; exact .inl rfl
          rcases ht with ⟨_, ht⟩ | ⟨ds, hb, ht⟩
          · rw [ht] at x
            rcases hvars x with y | y
            · exact .inl y
            · exact .inr (.inl y)
          · rcases addTypes_typ ds vars _ ht n v x with ⟨_, y⟩ | y
            · rcases hvars y with y | y
              · exact .inl y
              · exact .inr (.inl y)
            · exact .inr (.inr ⟨(sec, symbols), List.mem_cons_self, ds, hb, y⟩)
      · exact .inr (.inr ⟨e, List.mem_cons_of_mem _ he, x⟩)

theorem section_mono {btf : String → Option (List DVar)} {sec : Sec} {symbols : List (BitVec 64 × Sym)} {st st' : List (String × MapSpec) × List (String × VarSpec)}
    (h : loadSection btf sec symbols st = .ok st') {n : String} {v : VarSpec} (hv : st.2.lookup n = some v) : ∃ v', st'.2.lookup n = some v' ∧ (v.typ ≠ none → v'.typ ≠ none) := by
  rcases loadSection_ok h with ⟨_, rfl⟩ | ⟨_, d, vars, _, _, ha, _, ht⟩
  · exact ⟨v, hv, id⟩
  · have hl : vars.lookup n = some v := by
      rw [(addVars_ok sec d symbols st.2 vars ha).1, List.lookup_append, hv]; rfl
    rcases ht with ⟨_, ht⟩ | ⟨ds, hb, ht⟩
    · exact ⟨v, by rw [ht]; exact hl, id⟩
    · have hk : n ∈ st'.2.map Prod.fst := by
        rw [← erase_keys, addTypes_erase ds vars _ ht, erase_keys]; exact lookup_keys.mp ⟨v, hl⟩
      obtain ⟨v', hv'⟩ := lookup_keys.mpr hk
      refine ⟨v', hv', fun hne => ?_⟩
      rcases addTypes_typ ds vars _ ht n v' hv' with ⟨_, y⟩ | ⟨_, _, y⟩
      · rw [hl] at y; cases y; exact hne
      · rw [y.2.2.1]; exact fun z => by cases z

theorem sections_mono (btf : String → Option (List DVar)) : ∀ (l : List (Sec × List (BitVec 64 × Sym))) (st st' : List (String × MapSpec) × List (String × VarSpec)),
    loadSections btf l st = .ok st' → ∀ n v, st.2.lookup n = some v → ∃ v', st'.2.lookup n = some v' ∧ (v.typ ≠ none → v'.typ ≠ none)
  | [], st, st', h, n, v, hv => by cases h; exact ⟨v, hv, id⟩
  | (sec, symbols) :: r, st, st'', h, n, v, hv => by
    unfold loadSections at h
    split at h
    · cases h
    · rename_i st' hs
      obtain ⟨w, hw, h1⟩ := section_mono hs hv
      obtain ⟨u, hu, h2⟩ := sections_mono btf r st' st'' h n w hw
      exact ⟨u, hu, fun x => h2 (h1 x)⟩

/-- A variable listed in the Datasec of its section has a type. -/
theorem typed_complete (btf : String → Option (List DVar)) : ∀ (l : List (Sec × List (BitVec 64 × Sym))) (st st' : List (String × MapSpec) × List (String × VarSpec)),
    loadSections btf l st = .ok st' → ∀ e ∈ l, ∀ x ∈ e.2, exported x = true → ∀ ds, btf e.1.name = some ds → ∀ d ∈ ds, d.name = x.2.name →
    ∃ v, st'.2.lookup x.2.name = some v ∧ v.typ ≠ none
  | [], st, st', h, e, he, _, _, _, _, _, _, _, _ => by cases he
  | (sec, symbols) :: r, st, st'', h, e, he, x, hx, hex, ds, hds, d, hd, hn => by
    unfold loadSections at h
    split at h
    · cases h
    · rename_i st' hs
      rcases List.mem_cons.mp he with he | he
      · rw [he] at hx hds
        rcases loadSection_ok hs with ⟨hu, rfl⟩ | ⟨_, data, vars, _, _, ha, _, ht⟩
        · have := (Decidable.not_not.mp hu).2
          rw [this] at hx; cases hx
        · rcases ht with ⟨hb, _⟩ | ⟨ds', hb, ht⟩
          · rw [hb] at hds; cases hds
          · rw [hds] at hb; cases hb
            have hk : x.2.name ∈ st'.2.map Prod.fst := by
              rw [← erase_keys, addTypes_erase ds vars _ ht, erase_keys, (addVars_ok sec data symbols st.2 vars ha).1, List.map_append]
              refine List.mem_append_right _ ?_
              rw [List.map_map]
              exact List.mem_map.mpr ⟨x, List.mem_filter.mpr ⟨hx, hex⟩, rfl⟩
            obtain ⟨w, hw⟩ := lookup_keys.mpr hk
            have hwt : w.typ ≠ none := by
              rcases addTypes_typ ds vars _ ht _ w hw with ⟨y, _⟩ | ⟨_, _, y⟩
              · exact absurd hn (y d hd)
              · rw [y.2.2.1]; exact fun z => by cases z
            obtain ⟨u, hu, h2⟩ := sections_mono btf r st' st'' h _ w hw
            exact ⟨u, hu, h2 hwt⟩
      · exact typed_complete btf r st' st'' h e he x hx hex ds hds d hd hn

/-- **C80.** Unless a Datasec lists a name exported by another section, a variable has a type exactly if the Datasec of its section lists it, and it is the type listed there for the same place and size. -/
theorem types_exact_partial (o : Object) (l : List (Sec × List (BitVec 64 × Sym))) (hl : Order o l) (hc : NoCross o) (maps : List (String × MapSpec)) (vars : List (String × VarSpec))
    (h : loadSections o.btf l ([], []) = .ok (maps, vars)) (sec : Sec) (s : Sym) (bytes : Bytes) (hv : HasVar o sec s bytes) :
    ∃ v, vars.lookup s.name = some v ∧
      (∀ t, v.typ = some t → ∃ ds, o.btf sec.name = some ds ∧ ∃ d ∈ ds, d.name = s.name ∧ d.isVar = true ∧ d.typ = t ∧ d.offset.toNat = s.value.toNat ∧ d.size.toNat = s.size.toNat) ∧
      (v.typ = none → ∀ ds, o.btf sec.name = some ds → ∀ d ∈ ds, d.name ≠ s.name) := by
  obtain ⟨_, v2, _⟩ := variables_exact o l hl maps vars h
  obtain ⟨v, hlv, _, hoff, hval⟩ := v2 sec s bytes hv
  obtain ⟨hsec, hs, hex, data, hd, hb, hbytes⟩ := hv
  obtain ⟨e, he, rfl⟩ := (order_mem hl).mp hsec
  have hx : (s.value, s) ∈ e.2 := (order_sym hl he (s.value, s)).mpr ⟨rfl, hs⟩
  have hex' : exported (s.value, s) = true := (exported_iff _).mpr hex
  have hu : used e := (used_iff hl he).mpr (.inr ⟨s, hs⟩)
  obtain ⟨d', hd', _, hi⟩ := (loadSections_ok o.btf l ([], []) (maps, vars) h).2.2.1 e he hu
  obtain ⟨_, _, i3⟩ := hi _ hx hex'
  refine ⟨v, hlv, fun t ht => ?_, fun ht ds hds d hdm hn => ?_⟩
  · rcases typed_sound o.btf l ([], []) (maps, vars) h s.name v hlv with x | x | ⟨e', he', ds, hds, d, hdm, hde⟩
    · rw [ht] at x; cases x
    · cases x
    · obtain ⟨g1, g2, g3, g4, g5⟩ := hde
      have : e.1 = e'.1 := hc e'.1 ((order_mem hl).mpr ⟨e', he', rfl⟩) ds hds d hdm e.1 hsec s hs hex g1.symm
      rw [this]
      refine ⟨ds, hds, d, hdm, g1, g2, ?_, by rw [g4]; exact hoff, ?_⟩
      · rw [ht] at g3; exact (Option.some.inj g3).symm
      · rw [g5, BitVec.toNat_ofNat, hval, hbytes, List.length_take, List.length_drop]
        have : min s.size.toNat (data.length - s.value.toNat) = s.size.toNat := by omega
        rw [this]; exact Nat.mod_eq_of_lt i3
  · obtain ⟨w, hw, hwt⟩ := typed_complete o.btf l ([], []) (maps, vars) h e he (s.value, s) hx hex' ds hds d hdm hn
    have hw' : vars.lookup s.name = some w := hw
    rw [hlv] at hw'; cases hw'
    exact hwt ht

theorem assign_nodup (idx : Nat) : ∀ (syms : List Sym) (m : List (BitVec 64 × Sym)), (m.map Prod.fst).Nodup → ((assignSymbols idx syms m).map Prod.fst).Nodup
  | [], m, h => h
  | s :: r, m, h => by
    unfold assignSymbols
    split
    · apply assign_nodup idx r
      rw [List.map_cons, List.nodup_cons]
      refine ⟨fun hm => ?_, ?_⟩
      · obtain ⟨e, he, hes⟩ := List.mem_map.mp hm
        have := (List.mem_filter.mp he).2
        exact (of_decide_eq_true this) hes
      · exact List.Sublist.nodup (List.Sublist.map _ List.filter_sublist) h
    · exact assign_nodup idx r m h

theorem nodup_of_map {α β : Type} (f : α → β) : ∀ {l : List α}, (l.map f).Nodup → l.Nodup
  | [], _ => List.nodup_nil
  | a :: l, h => by
    rw [List.map_cons, List.nodup_cons] at h
    exact List.nodup_cons.mpr ⟨fun x => h.1 (List.mem_map.mpr ⟨a, x, rfl⟩), nodup_of_map f h.2⟩

theorem addVars_succeeds (sec : Sec) (data : Bytes) (hlen : data.length < 2 ^ 32) : ∀ (l : List (BitVec 64 × Sym)) (vars : List (String × VarSpec)),
    l.Nodup → (∀ x ∈ l, exported x = true → x.1.toNat + x.2.size.toNat ≤ data.length) → (∀ x ∈ l, exported x = true → x.2.name ∉ vars.map Prod.fst) →
    (∀ x ∈ l, ∀ y ∈ l, exported x = true → exported y = true → x.2.name = y.2.name → x = y) → (∀ k ∈ vars.map Prod.fst, startsWithDot k = false) →
    ∃ vars', addVars sec data l vars = .ok vars'
  | [], vars, _, _, _, _, _ => ⟨vars, rfl⟩
  | (off, s) :: r, vars, hnd, hin, hnew, huniq, hdot => by
    obtain ⟨hnd1, hnd2⟩ := List.nodup_cons.mp hnd
    have tail := fun vars' h1 h2 => addVars_succeeds sec data hlen r vars' hnd2 (fun x hx => hin x (List.mem_cons_of_mem _ hx)) h1
      (fun x hx y hy => huniq x (List.mem_cons_of_mem _ hx) y (List.mem_cons_of_mem _ hy)) h2
    have skip := tail vars (fun x hx => hnew x (List.mem_cons_of_mem _ hx)) hdot
    unfold addVars
    split
    · exact skip
    · rename_i hh
      split
      · exact skip
      · rename_i hb
        split
        · rename_i hdup
          exfalso
          have hk : s.name ∈ vars.map Prod.fst := lookup_keys.mp (Option.isSome_iff_exists.mp hdup)
          have hd := hdot _ hk
          refine hnew (off, s) List.mem_cons_self ?_ hk
          have hb' : s.bind = .glob ∨ s.bind = .weak := by
            by_cases x : s.bind = .glob
            · exact .inl x
            · exact .inr (by
                by_cases y : s.bind = .weak
                · exact y
                · exact absurd ⟨x, y⟩ hb)
          simp only [exported, Bool.and_eq_true, Bool.not_eq_true', Bool.or_eq_true, decide_eq_true_eq]
          exact ⟨⟨by simpa using hh, hb'⟩, hd⟩
        · split
          · exact skip
          · rename_i hd
            have hex : exported (off, s) = true := by
              have hb' : s.bind = .glob ∨ s.bind = .weak := by
                by_cases x : s.bind = .glob
                · exact .inl x
                · exact .inr (by
                    by_cases y : s.bind = .weak
                    · exact y
                    · exact absurd ⟨x, y⟩ hb)
              simp only [exported, Bool.and_eq_true, Bool.not_eq_true', Bool.or_eq_true, decide_eq_true_eq]
              exact ⟨⟨by simpa using hh, hb'⟩, by simpa using hd⟩
            have hi : off.toNat + s.size.toNat ≤ data.length := hin (off, s) List.mem_cons_self hex
            have hsum : (off + s.size).toNat = off.toNat + s.size.toNat := by rw [BitVec.toNat_add]; omega
            rw [if_neg (by omega), if_neg (by omega), if_neg (by omega)]
            refine tail _ (fun x hx hexx hm => ?_) (fun k hk => ?_)
            · rw [List.map_append] at hm
              rcases List.mem_append.mp hm with y | y
              · exact hnew x (List.mem_cons_of_mem _ hx) hexx y
              · have : x = (off, s) := huniq x (List.mem_cons_of_mem _ hx) (off, s) List.mem_cons_self hexx hex (List.mem_singleton.mp y)
                rw [this] at hx; exact hnd1 hx
            · rw [List.map_append] at hk
              rcases List.mem_append.mp hk with y | y
              · exact hdot k y
              · rw [List.mem_singleton.mp y]; simpa using hd

theorem addTypes_succeeds : ∀ (ds : List DVar) (vars : List (String × VarSpec)),
    (∀ d ∈ ds, d.name ≠ "" ∧ d.isVar = true ∧ ∀ ev, vars.lookup d.name = some ev → d.offset = ev.offset ∧ d.size = BitVec.ofNat 32 ev.value.length) → ∃ vars', addTypes ds vars = .ok vars'
  | [], vars, _ => ⟨vars, rfl⟩
  | d :: r, vars, h => by
    obtain ⟨h1, h2, h3⟩ := h d List.mem_cons_self
    unfold addTypes
    rw [if_neg h1, if_neg (by rw [h2]; exact fun x => by cases x)]
    split
    · exact addTypes_succeeds r vars (fun d' hd' => h d' (List.mem_cons_of_mem _ hd'))
    · rename_i ev hev
      obtain ⟨h4, h5⟩ := h3 ev hev
      rw [if_neg (fun x => x h4), if_neg (fun x => x h5)]
      refine addTypes_succeeds r _ (fun d' hd' => ?_)
      obtain ⟨g1, g2, g3⟩ := h d' (List.mem_cons_of_mem _ hd')
      refine ⟨g1, g2, fun ev' hev' => ?_⟩
      rw [setType_lookup] at hev'
      by_cases hn : d'.name = d.name
      · rw [if_pos hn, hn, hev] at hev'
        have := g3 ev (by rw [hn]; exact hev)
        cases hev'
        exact this
      · rw [if_neg hn] at hev'
        exact g3 ev' hev'

theorem holds_length {o : Object} (hz : Sized o) {sec : Sec} (hs : sec ∈ o.secs) {d : Bytes} (hd : Holds sec d) : d.length = sec.size.toNat := by
  rcases hd with ⟨_, hd⟩ | ⟨_, hd⟩
  · exact hz sec hs d hd
  · rw [hd, List.length_replicate]

theorem loads_rest (o : Object) (hw : WellFormed o) (hz : Sized o) (hc : NoCross o) (l : List (Sec × List (BitVec 64 × Sym))) (hl : Order o l) :
    ∀ (rest pre : List (Sec × List (BitVec 64 × Sym))) (st : List (String × MapSpec) × List (String × VarSpec)), l = pre ++ rest → st.2.map erase = pre.flatMap gen → (st.2.map Prod.fst).Nodup →
    ∃ st', loadSections o.btf rest st = .ok st'
  | [], _, st, _, _, _ => ⟨st, rfl⟩
  | (sec, symbols) :: rest, pre, st, hpre, hst, hnd => by
    have he : (sec, symbols) ∈ l := by rw [hpre]; exact List.mem_append_right _ List.mem_cons_self
    have hsec : sec ∈ o.secs := (order_mem hl).mpr ⟨_, he, rfl⟩
    have hsub : ∀ e ∈ pre, e ∈ l := fun e h => by rw [hpre]; exact List.mem_append_left _ h
    -- what is already there
    have hkeys : ∀ k ∈ st.2.map Prod.fst, ∃ e ∈ pre, ∃ s, StandsFor o e.1.idx s ∧ Exported s ∧ k = s.name := by
      intro k hk
      rw [← erase_keys, hst] at hk
      obtain ⟨⟨n, v⟩, hm, rfl⟩ := List.mem_map.mp hk
      obtain ⟨e, hep, hg⟩ := List.mem_flatMap.mp hm
      unfold gen at hg
      cases hcon : contents e.1 with
      | error x => rw [hcon] at hg; cases hg
      | ok d =>
        rw [hcon] at hg
        obtain ⟨x, hx, hv⟩ := List.mem_map.mp hg
        obtain ⟨hx1, hx2⟩ := List.mem_filter.mp hx
        exact ⟨e, hep, x.2, ((order_sym hl (hsub e hep) x).mp hx1).2, (exported_iff x).mp hx2, (congrArg Prod.fst hv).symm⟩
    have hidx : ∀ e ∈ pre, e.1 ≠ sec := by
      intro e hep hes
      have h1 : ((l.map Prod.fst).map (·.idx)).Nodup := (hl.secs.map _).nodup_iff.mpr hw.indices
      rw [hpre, List.map_append, List.map_append, List.nodup_append] at h1
      refine h1.2.2 e.1.idx (List.mem_map.mpr ⟨e.1, List.mem_map.mpr ⟨e, hep, rfl⟩, rfl⟩) sec.idx ?_ (by rw [hes])
      exact List.mem_map.mpr ⟨sec, List.mem_map.mpr ⟨(sec, symbols), List.mem_cons_self, rfl⟩, rfl⟩
    have hone : ∃ st', loadSection o.btf sec symbols st = .ok st' := by
      unfold loadSection
      split
      · exact ⟨st, rfl⟩
      · rename_i hu
        obtain ⟨hsz, d, hd⟩ := hw.data sec hsec ((used_iff hl he).mp hu)
        have hlen := holds_length hz hsec hd
        rw [if_neg (by omega), (contents_holds sec d).mpr hd]
        have hsym := fun x => order_sym hl he x
        have hav : ∃ vars, addVars sec d symbols st.2 = .ok vars := by
          apply addVars_succeeds sec d (by omega)
          · exact (hl.syms _ he).nodup_iff.mpr (nodup_of_map _ (assign_nodup sec.idx o.syms [] List.nodup_nil))
          · intro x hx hex
            obtain ⟨a, b⟩ := (hsym x).mp hx
            rw [hlen, a]
            exact hw.inside sec hsec x.2 b ((exported_iff x).mp hex)
          · intro x hx hex hk
            obtain ⟨a, b⟩ := (hsym x).mp hx
            obtain ⟨e, hep, s, hs, hexs, hn⟩ := hkeys _ hk
            exact hidx e hep (hw.unique e.1 ((order_mem hl).mpr ⟨e, hsub e hep, rfl⟩) s hs hexs sec hsec x.2 b ((exported_iff x).mp hex) hn.symm).1
          · intro x hx y hy hexx hexy hn
            obtain ⟨a, b⟩ := (hsym x).mp hx
            obtain ⟨a', b'⟩ := (hsym y).mp hy
            have := (hw.unique sec hsec x.2 b ((exported_iff x).mp hexx) sec hsec y.2 b' ((exported_iff y).mp hexy) hn).2
            exact Prod.ext (by rw [a, a', this]) this
          · intro k hk
            obtain ⟨e, hep, s, hs, hexs, hn⟩ := hkeys _ hk
            rw [hn]
            exact decide_eq_false hexs.2.2
        obtain ⟨vars, hav⟩ := hav
        obtain ⟨v1, v2, v3⟩ := addVars_ok sec d symbols st.2 vars hav
        simp only [hav]
        cases hb : o.btf sec.name with
        | none => exact ⟨_, rfl⟩
        | some ds =>
          have hat : ∃ vars', addTypes ds vars = .ok vars' := by
            apply addTypes_succeeds
            intro dv hdv
            obtain ⟨t1, t2, t3⟩ := hw.types sec hsec ds hb dv hdv
            refine ⟨t1, t2, fun ev hev => ?_⟩
            have hm := Elf.lookup_pair hev
            rw [v1] at hm
            rcases List.mem_append.mp hm with y | y
            · exfalso
              obtain ⟨e, hep, s, hs, hexs, hn⟩ := hkeys dv.name (List.mem_map.mpr ⟨_, y, rfl⟩)
              exact hidx e hep (hc sec hsec ds hb dv hdv e.1 ((order_mem hl).mpr ⟨e, hsub e hep, rfl⟩) s hs hexs hn.symm)
            · obtain ⟨x, hx, hv⟩ := List.mem_map.mp y
              obtain ⟨hx1, hx2⟩ := List.mem_filter.mp hx
              obtain ⟨a, b⟩ := (hsym x).mp hx1
              obtain ⟨i1, i2, i3⟩ := v2 x hx1 hx2
              unfold varOf at hv
              injection hv with hv1 hv2
              obtain ⟨o1, o2⟩ := t3 x.2 b ((exported_iff x).mp hx2) hv1
              rw [← hv2]
              constructor
              · apply BitVec.eq_of_toNat_eq
                show dv.offset.toNat = (BitVec.setWidth 32 x.1).toNat
                rw [o1, BitVec.toNat_setWidth, Nat.mod_eq_of_lt i2, a]
              · apply BitVec.eq_of_toNat_eq
                show dv.size.toNat = (BitVec.ofNat 32 (slice d x.1 x.2.size).length).toNat
                rw [slice_eq d _ _ i1 i2 i3, o2, BitVec.toNat_ofNat, List.length_take, List.length_drop]
                have : min x.2.size.toNat (d.length - x.1.toNat) = x.2.size.toNat := by omega
                rw [this, Nat.mod_eq_of_lt i3]
          obtain ⟨vars', hat⟩ := hat
          simp only [hat]
          exact ⟨_, rfl⟩
    obtain ⟨st', hst'⟩ := hone
    unfold loadSections
    rw [hst']
    have hsingle : loadSections o.btf [(sec, symbols)] st = .ok st' := by
      unfold loadSections
      rw [hst']; rfl
    obtain ⟨g1, g2, _⟩ := loadSections_ok o.btf _ st st' hsingle
    refine loads_rest o hw hz hc l hl rest (pre ++ [(sec, symbols)]) st' (by rw [hpre]; simp) ?_ (g2 hnd)
    rw [g1, hst, List.flatMap_append]

/-- **C80.** What a correct compiler produces is accepted, in whatever order Go iterates over sections and symbols. -/
theorem loads (o : Object) (hw : WellFormed o) (hz : Sized o) (hc : NoCross o) (l : List (Sec × List (BitVec 64 × Sym))) (hl : Order o l) :
    ∃ maps vars, loadSections o.btf l ([], []) = .ok (maps, vars) := by
  obtain ⟨⟨m, v⟩, h⟩ := loads_rest o hw hz hc l hl l [] ([], []) rfl rfl List.nodup_nil
  exact ⟨m, v, h⟩

/-- **C80.** Which variables there are, where they are and what they hold does not depend on the order in which Go iterates. -/
theorem same_variables (o : Object) (l l' : List (Sec × List (BitVec 64 × Sym))) (hl : Order o l) (hl' : Order o l') (maps maps' : List (String × MapSpec)) (vars vars' : List (String × VarSpec))
    (h : loadSections o.btf l ([], []) = .ok (maps, vars)) (h' : loadSections o.btf l' ([], []) = .ok (maps', vars')) (n : String) (v : VarSpec) (hv : vars.lookup n = some v) :
    ∃ v', vars'.lookup n = some v' ∧ v'.sec = v.sec ∧ v'.offset = v.offset ∧ v'.value = v.value := by
  obtain ⟨_, _, a3⟩ := variables_exact o l hl maps vars h
  obtain ⟨_, b2, _⟩ := variables_exact o l' hl' maps' vars' h'
  obtain ⟨sec, s, h1, h2, h3, h4, _⟩ := a3 n v hv
  obtain ⟨v', g1, g2, g3, g4⟩ := b2 sec s v.value h1
  exact ⟨v', by rw [← h2]; exact g1, by rw [g2, h3], BitVec.eq_of_toNat_eq (by rw [g3, h4]), g4⟩

/-- The same maps, too. -/
theorem same_maps (o : Object) (l l' : List (Sec × List (BitVec 64 × Sym))) (hl : Order o l) (hl' : Order o l') (maps maps' : List (String × MapSpec)) (vars vars' : List (String × VarSpec))
    (h : loadSections o.btf l ([], []) = .ok (maps, vars)) (h' : loadSections o.btf l' ([], []) = .ok (maps', vars')) (p : String × MapSpec) : p ∈ maps ↔ p ∈ maps' := by
  rw [maps_exact o l hl maps vars h p.1 p.2, maps_exact o l' hl' maps' vars' h' p.1 p.2]

/-- Names of maps are names of different sections. -/
theorem holds_unique {sec : Sec} {a b : Bytes} (ha : Holds sec a) (hb : Holds sec b) : a = b := by
  have h1 := (contents_holds sec a).mpr ha
  rw [(contents_holds sec b).mpr hb] at h1
  cases h1; rfl

theorem sec_of_name {o : Object} (hd : Distinct o) {a b : Sec} (ha : a ∈ o.secs) (hb : b ∈ o.secs) (h : a.name = b.name) : a = b := by
  unfold Distinct at hd
  revert ha hb
  generalize o.secs = l at hd
  induction l with
  | nil => intro ha; cases ha
  | cons x r ih =>
    intro ha hb
    rw [List.map_cons, List.nodup_cons] at hd
    rcases List.mem_cons.mp ha with ha | ha
    · rcases List.mem_cons.mp hb with hb | hb
      · rw [ha, hb]
      · exact absurd (List.mem_map.mpr ⟨b, hb, by rw [← h, ha]⟩) hd.1
    · rcases List.mem_cons.mp hb with hb | hb
      · exact absurd (List.mem_map.mpr ⟨a, ha, by rw [h, hb]⟩) hd.1
      · exact ih hd.2 ha hb

/-- **C80.** Writing back the variables as they were read (C15), in any order Go's sort produces, gives the bytes of the section. -/
theorem unmodified_identity (o : Object) (hdis : Distinct o) (hz : Sized o) (l : List (Sec × List (BitVec 64 × Sym))) (hl : Order o l) (maps : List (String × MapSpec)) (vars : List (String × VarSpec))
    (h : loadSections o.btf l ([], []) = .ok (maps, vars)) (n : String) (m : MapSpec) (hm : (n, m) ∈ maps)
    (specs sorted : List Memory.VarSpec) (hspecs : ∀ w ∈ specs, ∃ k v, vars.lookup k = some v ∧ v.sec = n ∧ w.offset = v.offset ∧ w.value = some v.value)
    (hs : Memory.SortedPerm specs sorted) (heap : List Bytes) (ref : Nat) (href : heap[ref]? = some m.contents)
    (hok : (Memory.updateDataSection heap ref sorted).2.2 = .ok) :
    (Memory.updateDataSection heap ref sorted).1[(Memory.updateDataSection heap ref sorted).2.1]? = some m.contents := by
  obtain ⟨_, _, v3⟩ := variables_exact o l hl maps vars h
  obtain ⟨sec, hsec, hu, hn, hh, hvs, _⟩ := (maps_exact o l hl maps vars h n m).mp hm
  have key : ∀ w ∈ specs, ∃ b, w.value = some b ∧ window m.contents w.start b.length = b ∧ w.start + b.length ≤ m.contents.length := by
    intro w hw
    obtain ⟨k, v, hv, hvn, ho, hval⟩ := hspecs w hw
    obtain ⟨sec', s, ⟨hsec', _, _, data, hd, hb, hbytes⟩, _, hsn, hoff, hlen⟩ := v3 k v hv
    have : sec' = sec := sec_of_name hdis hsec' hsec (by rw [← hsn, hvn, hn])
    subst this
    have hdm : data = m.contents := holds_unique hd hh
    rw [hdm] at hbytes hb
    have hst : w.start = s.value.toNat := by unfold Memory.VarSpec.start; rw [ho, hoff]
    exact ⟨v.value, hval, by unfold window; rw [hst, hlen]; exact hbytes.symm, by rw [hst, hlen]; exact hb⟩
  have hsmall : m.contents.length < 2 ^ 32 := by
    rw [holds_length hz hsec hh, ← hvs]; exact m.valueSize.isLt
  have hnw : ∀ w ∈ specs, w.NoWrap := by
    intro w hw
    obtain ⟨b, h1, _, h3⟩ := key w hw
    unfold Memory.VarSpec.NoWrap Memory.VarSpec.len
    rw [h1]
    simp only
    omega
  obtain ⟨data', hd', hl', _, _, hwin, hrest⟩ := (Memory.updateDataSection_exact_partial heap ref m.contents href specs sorted hs hnw).2.2 hok
  rw [hd']
  congr 1
  apply List.ext_getElem?
  intro i
  by_cases hc : ∃ w ∈ specs, w.Covers i
  · obtain ⟨w, hw, hcov⟩ := hc
    obtain ⟨b, h1, h2, h3⟩ := key w hw
    have h4 := hwin w hw b h1
    obtain ⟨_, c1, c2⟩ := hcov
    have hlen : w.len = b.length := by simp [Memory.VarSpec.len, h1]
    have e1 : (window data' w.start b.length)[i - w.start]? = data'[i]? := by
      unfold window
      rw [List.getElem?_take_of_lt (by omega), List.getElem?_drop]; congr 1; omega
    have e2 : (window m.contents w.start b.length)[i - w.start]? = m.contents[i]? := by
      unfold window
      rw [List.getElem?_take_of_lt (by omega), List.getElem?_drop]; congr 1; omega
    rw [← e1, ← e2, h4, h2]
  · exact hrest i (fun w hw hcov => hc ⟨w, hw, hcov⟩)

/-! ### A concrete object -/

/-- `int a = 1, b = 2;` in `.data`, a hidden symbol, and `int c;` in `.bss`. -/
def exObj : Object :=
  { syms := [⟨"a", .object, .glob, false, 1, 0, 4⟩, ⟨"b", .object, .weak, false, 1, 4, 4⟩, ⟨"h", .object, .glob, true, 1, 8, 4⟩, ⟨"c", .object, .glob, false, 2, 0, 4⟩, ⟨"f", .func, .glob, false, 3, 0, 16⟩]
    secs := [⟨1, ".data", .progbits, 12, some [1, 0, 0, 0, 2, 0, 0, 0, 3, 0, 0, 0], 1⟩, ⟨2, ".bss", .nobits, 4, none, 0⟩, ⟨4, ".rodata.str1.1", .progbits, 2, some [65, 0], 0⟩]
    btf := fun n => if n = ".data" then some [⟨"a", true, 0, 4, 7⟩, ⟨"b", true, 4, 4, 8⟩, ⟨"h", true, 8, 4, 9⟩] else none }

/-- One of its orders. -/
def exOrder : List (Sec × List (BitVec 64 × Sym)) := exObj.secs.map (fun s => (s, assignSymbols s.idx exObj.syms []))

theorem exOrder_ok : Order exObj exOrder := by
  constructor
  · unfold exOrder; rw [List.map_map]; simp [Function.comp_def]
  · intro e he
    obtain ⟨s, _, rfl⟩ := List.mem_map.mp he
    exact List.Perm.refl _

example : (match loadSections exObj.btf exOrder ([], []) with | .ok (maps, vars) => some (maps.map Prod.fst, vars) | .error _ => none) =
    some ([".data", ".bss"], [("b", ⟨".data", 4, [2, 0, 0, 0], some 8⟩), ("a", ⟨".data", 0, [1, 0, 0, 0], some 7⟩), ("c", ⟨".bss", 0, [0, 0, 0, 0], none⟩)]) := by decide +kernel

theorem ex_stands (idx : Nat) (s : Sym) (h : StandsFor exObj idx s) : (s.value, s) ∈ assignSymbols idx exObj.syms [] := (assign_stands exObj idx (s.value, s)).mpr ⟨rfl, h⟩

theorem ex_all (P : Sec → Sym → Prop)
    (h : ∀ sec ∈ exObj.secs, ∀ x ∈ assignSymbols sec.idx exObj.syms [], exported x = true → P sec x.2) : ∀ sec ∈ exObj.secs, ∀ s, StandsFor exObj sec.idx s → Exported s → P sec s :=
  fun sec hsec s hs hex => h sec hsec (s.value, s) (ex_stands _ s hs) ((exported_iff _).mpr hex)

theorem ex_secs (P : Sec → Prop) (h1 : P ⟨1, ".data", .progbits, 12, some [1, 0, 0, 0, 2, 0, 0, 0, 3, 0, 0, 0], 1⟩) (h2 : P ⟨2, ".bss", .nobits, 4, none, 0⟩)
    (h3 : P ⟨4, ".rodata.str1.1", .progbits, 2, some [65, 0], 0⟩) : ∀ sec ∈ exObj.secs, P sec := by
  intro sec hs
  rcases List.mem_cons.mp hs with x | hs
  · rw [x]; exact h1
  · rcases List.mem_cons.mp hs with x | hs
    · rw [x]; exact h2
    · rw [List.mem_singleton.mp hs]; exact h3

example : WellFormed exObj where
  data := ex_secs _ (fun _ => ⟨by decide, _, .inl ⟨rfl, rfl⟩⟩) (fun _ => ⟨by decide, _, .inr ⟨rfl, rfl⟩⟩) (fun _ => ⟨by decide, _, .inl ⟨rfl, rfl⟩⟩)
  inside := ex_all _ (ex_secs _ (by decide) (by decide) (by decide))
  unique := ex_all (fun sec s => ∀ sec' ∈ exObj.secs, ∀ s', StandsFor exObj sec'.idx s' → Exported s' → s.name = s'.name → sec = sec' ∧ s = s') (ex_secs _
    (fun x hx hex => ex_all (fun sec' s' => x.2.name = s'.name → _ = sec' ∧ x.2 = s') (ex_secs _
      (fun y hy hey hn => ⟨rfl, by revert x y; decide⟩) (fun y hy hey hn => absurd hn (by revert x y; decide)) (fun y hy => by cases hy)))
    (fun x hx hex => ex_all (fun sec' s' => x.2.name = s'.name → _ = sec' ∧ x.2 = s') (ex_secs _
      (fun y hy hey hn => absurd hn (by revert x y; decide)) (fun y hy hey hn => ⟨rfl, by revert x y; decide⟩) (fun y hy => by cases hy)))
    (fun x hx => by cases hx))
  types := ex_secs _
    (fun ds hds d hd => by
      cases hds
      have hs : ∀ s, StandsFor exObj 1 s → Exported s → s.name = d.name → d.offset.toNat = s.value.toNat ∧ d.size.toNat = s.size.toNat := by
        intro s hs hex hn
        have hm := ex_stands 1 s hs
        have hx := (exported_iff (s.value, s)).mpr hex
        have : ∀ x ∈ assignSymbols 1 exObj.syms [], exported x = true → ∀ d ∈ ([⟨"a", true, 0, 4, 7⟩, ⟨"b", true, 4, 4, 8⟩, ⟨"h", true, 8, 4, 9⟩] : List DVar), x.2.name = d.name → d.offset.toNat = x.2.value.toNat ∧ d.size.toNat = x.2.size.toNat := by decide
        exact this _ hm hx d hd hn
      refine ⟨?_, ?_, hs⟩
      · clear hs; intro x; revert d; decide
      · clear hs; revert d; decide)
    (fun ds hds => by cases hds) (fun ds hds => by cases hds)
  indices := by decide

example : Sized exObj := ex_secs _ (fun d hd => by cases hd; rfl) (fun d hd => by cases hd) (fun d hd => by cases hd; rfl)

example : NoCross exObj := ex_secs _
  (fun ds hds d hd sec' hsec' s hs hex hn => by
    cases hds
    have key : ∀ x ∈ assignSymbols 2 exObj.syms [], exported x = true → ∀ d ∈ ([⟨"a", true, 0, 4, 7⟩, ⟨"b", true, 4, 4, 8⟩, ⟨"h", true, 8, 4, 9⟩] : List DVar), x.2.name ≠ d.name := by decide
    exact ex_all (fun sec' s => s.name = d.name → sec' = _) (ex_secs _ (fun _ _ _ _ => rfl) (fun x hx hex hn => absurd hn (key x hx hex d hd)) (fun x hx => by cases hx)) sec' hsec' s hs hex hn)
  (fun ds hds => by cases hds) (fun ds hds => by cases hds)

/-! ### What goes wrong -/

/-- `int x` in `.data` of one translation unit, `static int x` in `.bss` of another one linked to it. -/
def crossObj (off : BitVec 64) : Object :=
  { syms := [⟨"x", .object, .glob, false, 1, off, 4⟩, ⟨"x", .object, .loc, false, 2, 0, 4⟩]
    secs := [⟨1, ".data", .progbits, 8, some [1, 0, 0, 0, 2, 0, 0, 0], 1⟩, ⟨2, ".bss", .nobits, 4, none, 1⟩]
    btf := fun n => if n = ".data" then some [⟨"x", true, off.setWidth 32, 4, 7⟩] else if n = ".bss" then some [⟨"x", true, 0, 4, 8⟩] else none }

/-- The symbols of its sections. -/
def crossSyms (off : BitVec 64) (s : Sec) : Sec × List (BitVec 64 × Sym) := (s, assignSymbols s.idx (crossObj off).syms [])

theorem crossOrder (off : BitVec 64) : Order (crossObj off) ((crossObj off).secs.map (crossSyms off)) ∧ Order (crossObj off) ((crossObj off).secs.reverse.map (crossSyms off)) := by
  refine ⟨⟨by rw [List.map_map]; simp [Function.comp_def, crossSyms], fun e he => ?_⟩, ⟨by rw [List.map_map]; simp [Function.comp_def, crossSyms], fun e he => ?_⟩⟩
  all_goals
    obtain ⟨s, _, rfl⟩ := List.mem_map.mp he
    exact List.Perm.refl _

/-- **C80, counterexample.** Such an object loads or does not load, depending on the order in which Go iterates over the sections. -/
theorem load_depends_on_order : ∃ o l l', Order o l ∧ Order o l' ∧ Sized o ∧ Distinct o ∧
    loadSections o.btf l ([], []) = .error .offsetMismatch ∧ ∃ maps vars, loadSections o.btf l' ([], []) = .ok (maps, vars) :=
  ⟨crossObj 4, _, _, (crossOrder 4).1, (crossOrder 4).2, (by
    intro sec hs d hd
    rcases List.mem_cons.mp hs with x | hs
    · rw [x] at hd ⊢; cases hd; rfl
    · rw [List.mem_singleton.mp hs] at hd; cases hd), (show List.Nodup _ by decide), by decide +kernel, _, _, rfl⟩

/-- **C80, counterexample.** If the two variables happen to be at the same offset, the exported one has its own type or the other one's, depending on that order. -/
theorem type_depends_on_order : ∃ o l l' maps vars maps' vars' v v', Order o l ∧ Order o l' ∧
    loadSections o.btf l ([], []) = .ok (maps, vars) ∧ loadSections o.btf l' ([], []) = .ok (maps', vars') ∧
    vars.lookup "x" = some v ∧ vars'.lookup "x" = some v' ∧ v.typ = some 8 ∧ v'.typ = some 7 ∧
    (o.btf v.sec).map (fun ds => ds.map (fun d => (d.name, d.typ))) = some [("x", 7)] :=
  ⟨crossObj 0, _, _, _, _, _, _, _, _, (crossOrder 0).1, (crossOrder 0).2, rfl, rfl, rfl, rfl, rfl, rfl, rfl⟩

/-- **C80, counterexample.** Of two exported symbols with the same address, as an alias has, only the last in the symbol table becomes a variable. -/
theorem alias_lost : ∃ o l maps vars, Order o l ∧ loadSections o.btf l ([], []) = .ok (maps, vars) ∧
    (⟨"a", .object, .glob, false, 1, 0, 4⟩ : Sym) ∈ o.syms ∧ vars.map Prod.fst = ["b"] :=
  ⟨{ syms := [⟨"a", .object, .glob, false, 1, 0, 4⟩, ⟨"b", .object, .glob, false, 1, 0, 4⟩], secs := [⟨1, ".data", .progbits, 4, some [1, 0, 0, 0], 1⟩], btf := fun _ => none },
    [(⟨1, ".data", .progbits, 4, some [1, 0, 0, 0], 1⟩, [(0, ⟨"b", .object, .glob, false, 1, 0, 4⟩)])], _, _, ⟨List.Perm.refl _, fun e he => by rw [List.mem_singleton.mp he]; exact List.Perm.refl _⟩,
    rfl, List.mem_cons_self, rfl⟩

/-- **C80, counterexample.** Two sections with the same name are both accepted, but there is one map of that name: the variables of one section lose theirs. -/
theorem same_name_collides : ∃ o l maps vars, Order o l ∧ loadSections o.btf l ([], []) = .ok (maps, vars) ∧
    maps.map Prod.fst = [".rodata", ".rodata"] ∧ vars.map (fun p => (p.1, p.2.sec)) = [("a", ".rodata"), ("b", ".rodata")] :=
  ⟨{ syms := [⟨"a", .object, .glob, false, 1, 0, 1⟩, ⟨"b", .object, .glob, false, 2, 0, 1⟩], secs := [⟨1, ".rodata", .progbits, 1, some [1], 1⟩, ⟨2, ".rodata", .progbits, 1, some [2], 1⟩], btf := fun _ => none },
    [(⟨1, ".rodata", .progbits, 1, some [1], 1⟩, [(0, ⟨"a", .object, .glob, false, 1, 0, 1⟩)]), (⟨2, ".rodata", .progbits, 1, some [2], 1⟩, [(0, ⟨"b", .object, .glob, false, 2, 0, 1⟩)])], _, _,
    ⟨List.Perm.refl _, fun e he => by
      rcases List.mem_cons.mp he with x | he
      · rw [x]; exact List.Perm.refl _
      · rw [List.mem_singleton.mp he]; exact List.Perm.refl _⟩,
    rfl, rfl, rfl⟩

end Ebpf.DataSec
