import Verif.Model.Kconfig
import Verif.Spec.Kconfig
import Verif.Lemmas.Lists
/-! # C45 (kernel config parsing) and C46 (storing config integers) -/
namespace Ebpf.Kconfig
open Ebpf.Spec.Kconfig

theorem cut_some (c : Byte) : ∀ (s k v : Bytes), cut c s = some (k, v) ↔ s = k ++ c :: v ∧ c ∉ k
  | [], k, v => by simp [cut]
  | b :: bs, k, v => by
    unfold cut
    by_cases hb : b = c
    · subst hb
      simp only [if_true, Option.some.injEq, Prod.mk.injEq]
      constructor
      · rintro ⟨rfl, rfl⟩; simp
      · rintro ⟨he, hn⟩
        cases k with
        | nil => simpa using he
        | cons a k => simp at he; simp [he.1] at hn
    · rw [if_neg hb]
      cases k with
      | nil =>
        simp only [Option.map_eq_some_iff, List.nil_append, List.cons.injEq]
        constructor
        · rintro ⟨⟨k', v'⟩, _, h⟩; simp at h
        · rintro ⟨⟨h, _⟩, _⟩; exact absurd h hb
      | cons a k =>
        have ih := cut_some c bs k v
        simp only [Option.map_eq_some_iff, Prod.mk.injEq, List.cons.injEq, Prod.exists, List.cons_append,
          List.mem_cons, not_or]
        constructor
        · rintro ⟨k', v', h, ⟨rfl, rfl⟩, rfl⟩
          have := ih.1 h
          exact ⟨⟨rfl, this.1⟩, fun h => hb h.symm, this.2⟩
        · rintro ⟨⟨rfl, h⟩, _, h3⟩
          exact ⟨k, v, ih.2 ⟨h, h3⟩, ⟨rfl, rfl⟩, rfl⟩

theorem prefix_lit : ascii "CONFIG_" = [0x43, 0x4f, 0x4e, 0x46, 0x49, 0x47, 0x5f] := by decide

/-- The value `line` assigns to `key`, computed. -/
def assign? (key line : Bytes) : Option Bytes :=
  if (ascii "CONFIG_").isPrefixOf line then
    match cut 0x3d#8 line with
    | some (k, v) => if k = key then some v else none
    | none => none
  else none

theorem assign?_some (key line v : Bytes) : assign? key line = some v ↔ Assigns line key v := by
  unfold assign? Assigns
  rw [← List.isPrefixOf_iff_prefix, prefix_lit]
  split
  · next h =>
    cases hc : cut 0x3d#8 line with
    | none =>
      simp only [reduceCtorEq, false_iff, not_and]
      intro h1 h2 _
      have := (cut_some 0x3d#8 line key v).2 ⟨h1, h2⟩
      rw [hc] at this; cases this
    | some p =>
      obtain ⟨k, v'⟩ := p
      have h1 := (cut_some _ _ _ _).1 hc
      dsimp only
      constructor
      · intro h2
        split at h2
        · next hk => subst hk; injection h2 with h2; subst h2; exact ⟨h1.1, h1.2, h⟩
        · cases h2
      · rintro ⟨h2, h3, _⟩
        have := (cut_some 0x3d#8 line key v).2 ⟨h2, h3⟩
        rw [hc] at this
        simp only [Option.some.injEq, Prod.mk.injEq] at this
        simp [this.1, this.2]
  · next h =>
    simp only [reduceCtorEq, false_iff, not_and]
    intro _ _ h'
    exact h h'

theorem first_iff (lines : List Bytes) (key v : Bytes) :
    FirstAssignment lines key v ↔ lines.findSome? (assign? key) = some v := by
  rw [List.findSome?_eq_some_iff]
  unfold FirstAssignment
  constructor
  · rintro ⟨b, l, a, rfl, h1, h2⟩
    refine ⟨b, l, a, rfl, (assign?_some _ _ _).2 h1, ?_⟩
    intro x hx
    cases hc : assign? key x with
    | none => rfl
    | some w => exact absurd ((assign?_some _ _ _).1 hc) (h2 x hx w)
  · rintro ⟨b, l, a, rfl, h1, h2⟩
    refine ⟨b, l, a, rfl, (assign?_some _ _ _).1 h1, ?_⟩
    intro x hx w hw
    have := (assign?_some _ _ _).2 hw
    rw [h2 x hx] at this; cases this

/-- Keys the filter lets through. -/
def Allowed (filter : Option (List Bytes)) (key : Bytes) : Prop :=
  match filter with
  | none => True
  | some f => key ∈ f

/-- State of the result after the lines in `done`. -/
structure Inv (filter : Option (List Bytes)) (done : List Bytes) (ret : StrMap) : Prop where
  hit : ∀ key, Allowed filter key → ret.lookup key = done.findSome? (assign? key)
  miss : ∀ p ∈ ret, Allowed filter p.1
  nodup : (ret.map Prod.fst).Nodup

theorem lookup_none_of (ret : StrMap) (key : Bytes) (h : ∀ p ∈ ret, p.1 ≠ key) : ret.lookup key = none := by
  rw [List.lookup_eq_none_iff]
  intro p hp
  simpa using (h p hp).symm

theorem processLine_inv (filter : Option (List Bytes)) (done : List Bytes) (ret ret' : StrMap) (line : Bytes)
    (h : Inv filter done ret) (hp : processLine line ret filter = some ret') :
    Inv filter (done ++ [line]) ret' := by
  unfold processLine at hp
  have app : ∀ key, (done ++ [line]).findSome? (assign? key) =
      (done.findSome? (assign? key)).or (assign? key line) := by
    intro key
    rw [List.findSome?_append]; congr 1
    simp only [List.findSome?_cons, List.findSome?_nil]
    cases assign? key line <;> rfl
  split at hp
  · next hpre =>
    injection hp with hp; subst hp
    refine ⟨fun key ha => ?_, h.miss, h.nodup⟩
    rw [app, h.hit key ha]
    simp [assign?, hpre]
  · next hpre =>
    have hpre' : (ascii "CONFIG_").isPrefixOf line = true := by simpa using hpre
    split at hp
    · cases hp
    · next k v hc =>
      have has : ∀ key, assign? key line = if k = key then some v else none := by
        intro key; simp [assign?, hpre', hc]
      split at hp
      · cases hp
      split at hp
      · next hflt =>
        injection hp with hp; subst hp
        refine ⟨fun key ha => ?_, h.miss, h.nodup⟩
        rw [app, has, h.hit key ha]
        have : k ≠ key := by
          rintro rfl
          cases filter with
          | none => simp [excluded] at hflt
          | some f => simp [Allowed] at ha; simp [excluded, ha] at hflt
        simp [this]
      · next hflt =>
        have hall : Allowed filter k := by
          cases filter with
          | none => trivial
          | some f => simp [Allowed, excluded] at hflt ⊢; exact hflt
        split at hp
        · next w hw =>
          injection hp with hp; subst hp
          refine ⟨fun key ha => ?_, h.miss, h.nodup⟩
          rw [app, has, ← h.hit key ha]
          by_cases hk : k = key
          · subst hk; simp [hw]
          · simp [hk]
        · next hw =>
          injection hp with hp; subst hp
          refine ⟨fun key ha => ?_, ?_, ?_⟩
          · rw [app, has, ← h.hit key ha]
            by_cases hk : k = key
            · subst hk; simp [hw]
            · rw [List.lookup_cons]
              have : (key == k) = false := by simpa using fun h => hk h.symm
              simp [this, hk]
          · intro p hp
            rcases List.mem_cons.1 hp with rfl | hp
            · exact hall
            · exact h.miss p hp
          · rw [List.map_cons, List.nodup_cons]
            refine ⟨?_, h.nodup⟩
            intro hm
            obtain ⟨p, hp, he⟩ := List.mem_map.1 hm
            rw [List.lookup_eq_none_iff] at hw
            have := hw p hp
            simp [he] at this

theorem scan_inv (filter : Option (List Bytes)) (hf : ∀ f, filter = some f → f.Nodup) (re : Bool) :
    ∀ (rest done : List Bytes) (ret m : StrMap), Inv filter done ret → scan filter re rest ret = some m →
      (∀ key, Allowed filter key → m.lookup key = (done ++ rest).findSome? (assign? key)) ∧
      ∀ p ∈ m, Allowed filter p.1 := by
  intro rest
  induction rest with
  | nil =>
    intro done ret m h hs
    unfold scan at hs
    split at hs
    · cases hs
    · injection hs with hs; subst hs; simp; exact ⟨h.hit, fun a b hm => h.miss (a, b) hm⟩
  | cons line rest ih =>
    intro done ret m h hs
    unfold scan at hs
    split at hs
    · cases hs
    · next ret' hpl =>
      have h' := processLine_inv filter done ret ret' line h hpl
      have hcont : scan filter re rest ret' = some m →
          (∀ key, Allowed filter key → m.lookup key = (done ++ line :: rest).findSome? (assign? key)) ∧
          ∀ p ∈ m, Allowed filter p.1 := by
        intro hs
        have := ih (done ++ [line]) ret' m h' hs
        simpa using this
      cases filter with
      | none => exact hcont hs
      | some f =>
        dsimp only at hs
        split at hs
        · next hlen =>
          injection hs with hs; subst hs
          refine ⟨fun key ha => ?_, h'.miss⟩
          have hmem : key ∈ ret'.map Prod.fst := by
            apply Classical.byContradiction
            intro hn
            have hsub : ∀ x ∈ key :: ret'.map Prod.fst, x ∈ f := by
              intro x hx
              rcases List.mem_cons.1 hx with rfl | hx
              · exact ha
              · obtain ⟨p, hp, rfl⟩ := List.mem_map.1 hx
                exact h'.miss p hp
            have := nodup_subset_length_le (key :: ret'.map Prod.fst) f (List.nodup_cons.2 ⟨hn, h'.nodup⟩) hsub
            simp at this; omega
          have hsome : ∃ v, ret'.lookup key = some v := by
            cases hl : ret'.lookup key with
            | some v => exact ⟨v, rfl⟩
            | none =>
              rw [List.lookup_eq_none_iff] at hl
              obtain ⟨p, hp, he⟩ := List.mem_map.1 hmem
              have := hl p hp
              simp [he] at this
          obtain ⟨v, hv⟩ := hsome
          have h1 := h'.hit key ha
          rw [hv] at h1
          rw [hv, show done ++ line :: rest = (done ++ [line]) ++ rest by simp, List.findSome?_append, ← h1]
          rfl
        · exact hcont hs

/-- **C45**. When `Parse` succeeds, the result maps a requested option to `value` exactly if the
first line of the *whole* file that assigns the option assigns `value`; the early exit has no
influence. -/
theorem parse_first_assignment (lines : List Bytes) (readErr : Bool) (filter : Option (List Bytes)) (m : StrMap)
    (hf : ∀ f, filter = some f → f.Nodup) (h : parse lines readErr filter = some m)
    (key value : Bytes) :
    m.lookup key = some value ↔
      (∀ f, filter = some f → key ∈ f) ∧ FirstAssignment lines key value := by
  have h0 : Inv filter [] [] := ⟨by simp, by simp, by simp⟩
  obtain ⟨h1, h2⟩ := scan_inv filter hf readErr lines [] [] m h0 h
  have hall : (∀ f, filter = some f → key ∈ f) ↔ Allowed filter key := by
    cases filter <;> simp [Allowed]
  rw [hall, first_iff]
  constructor
  · intro hl
    have ha : Allowed filter key := by
      apply Classical.byContradiction
      intro hn
      have : m.lookup key = none := lookup_none_of m key (by
        rintro p hp rfl; exact hn (h2 p hp))
      rw [this] at hl; cases hl
    exact ⟨ha, by simpa using (h1 key ha).symm.trans hl⟩
  · rintro ⟨ha, hl⟩
    rw [h1 key ha]; simpa using hl

theorem scan_fails (filter : Option (List Bytes)) (re : Bool) :
    ∀ (rest : List Bytes) (ret : StrMap), scan filter re rest ret = none → re = false →
      ∃ line ∈ rest, ([0x43, 0x4f, 0x4e, 0x46, 0x49, 0x47, 0x5f] : Bytes) <+: line ∧
        ∀ k v, Assigns line k v → v = [] := by
  intro rest
  induction rest with
  | nil => intro ret h hr; simp [scan, hr] at h
  | cons line rest ih =>
    intro ret h hr
    unfold scan at h
    split at h
    · next hp =>
      refine ⟨line, List.mem_cons_self, ?_⟩
      unfold processLine at hp
      split at hp
      · cases hp
      · next hpre =>
        have hpre' : (ascii "CONFIG_").isPrefixOf line = true := by simpa using hpre
        refine ⟨by rw [← prefix_lit, ← List.isPrefixOf_iff_prefix]; exact hpre', ?_⟩
        intro k v ha
        have h1 := (cut_some 0x3d#8 line k v).2 ⟨ha.1, ha.2.1⟩
        rw [h1] at hp
        dsimp only at hp
        by_cases hv : v.isEmpty
        · simpa using hv
        · rw [if_neg hv] at hp
          split at hp
          · cases hp
          · split at hp <;> cases hp
    · next ret' hp =>
      have : scan filter re rest ret' = none := by
        cases filter with
        | none => exact h
        | some f =>
          dsimp only at h
          split at h
          · cases h
          · exact h
      obtain ⟨l, hl, h2⟩ := ih ret' this hr
      exact ⟨l, List.mem_cons_of_mem _ hl, h2⟩

/-- **C45**. `Parse` fails only if reading fails or some `CONFIG_` line assigns nothing
(it has no `=` or an empty value). -/
theorem parse_fails_only (lines : List Bytes) (filter : Option (List Bytes))
    (h : parse lines false filter = none) :
    ∃ line ∈ lines, ([0x43, 0x4f, 0x4e, 0x46, 0x49, 0x47, 0x5f] : Bytes) <+: line ∧
        ∀ k v, Assigns line k v → v = [] :=
  scan_fails filter false lines [] h rfl

/-- Non-vacuity: comments are skipped, the first assignment wins, the filter applies. -/
def sampleLines : List Bytes :=
  [ascii "# CONFIG_A is not set", ascii "CONFIG_B=y", ascii "CONFIG_C=1=2", ascii "CONFIG_B=n", ascii "CONFIG_D"]

example : parse sampleLines false (some [ascii "CONFIG_C", ascii "CONFIG_B"]) =
    some [(ascii "CONFIG_C", ascii "1=2"), (ascii "CONFIG_B", ascii "y")] := by decide
example : parse sampleLines false none = none := by decide
example : [ascii "CONFIG_C", ascii "CONFIG_B"].Nodup := by decide

end Ebpf.Kconfig
