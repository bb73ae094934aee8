import Verif.Spec.Info
/-!
# C83: information about programs and maps
-/
namespace Ebpf.Info
open Ebpf.InfoSpec

/-! ## fdinfo -/

theorem scan_ok {σ : Type} (fields : List (Field σ)) : ∀ (lines : List (Option (String × Tok))) (n : Nat) (s : σ),
    (∀ k v f, some (k, v) ∈ lines → f ∈ fields → f.key = k → ∀ s, ∃ s', f.set v s = some s') →
    ∃ n' s', scanLines fields lines n s = .ok (n', s') ∧ n ≤ n' ∧ (n' = n ↔ ∀ k v f, some (k, v) ∈ lines → f ∈ fields → f.key ≠ k) := by
  intro lines
  induction lines with
  | nil => intro n s _; exact ⟨n, s, rfl, Nat.le_refl _, ⟨(fun _ k v f hm => by cases hm), fun _ => rfl⟩⟩
  | cons l r ih =>
    intro n s h
    have hr : ∀ k v f, some (k, v) ∈ r → f ∈ fields → f.key = k → ∀ s, ∃ s', f.set v s = some s' := fun k v f hm => h k v f (List.mem_cons_of_mem _ hm)
    cases l with
    | none =>
      obtain ⟨n', s', h1, h2, h3⟩ := ih n s hr
      refine ⟨n', s', h1, h2, h3.trans ⟨fun hh k v f hm => ?_, fun hh k v f hm => hh k v f (List.mem_cons_of_mem _ hm)⟩⟩
      rcases List.mem_cons.mp hm with e | e
      · cases e
      · exact hh k v f e
    | some kv =>
      obtain ⟨k, v⟩ := kv
      unfold scanLines
      cases hf : fields.find? (fun f => f.key == k) with
      | none =>
        simp only
        obtain ⟨n', s', h1, h2, h3⟩ := ih n s hr
        refine ⟨n', s', h1, h2, h3.trans ⟨fun hh k' v' f hm => ?_, fun hh k v f hm => hh k v f (List.mem_cons_of_mem _ hm)⟩⟩
        rcases List.mem_cons.mp hm with e | e
        · cases e
          intro hmf hk
          have := List.find?_eq_none.mp hf f hmf
          simp [hk] at this
        · exact hh k' v' f e
      | some f =>
        simp only
        have hmem := List.mem_of_find?_eq_some hf
        have hkey : f.key = k := by simpa using List.find?_some hf
        have hne : ∀ m, n + 1 ≤ m → (m = n ↔ ∀ k' v' f, some (k', v') ∈ some (k, v) :: r → f ∈ fields → f.key ≠ k') := by
          intro m hm
          refine ⟨fun e => by omega, fun hh => absurd hkey (hh k v f (List.mem_cons_self ..) hmem)⟩
        by_cases hz : f.isZero s = false
        · rw [if_pos hz]
          obtain ⟨n', s', h1, h2, _⟩ := ih (n + 1) s hr
          exact ⟨n', s', h1, by omega, hne n' h2⟩
        · rw [if_neg hz]
          obtain ⟨s1, hs1⟩ := h k v f (List.mem_cons_self ..) hmem hkey s
          simp only [hs1]
          obtain ⟨n', s', h1, h2, _⟩ := ih (n + 1) s1 hr
          exact ⟨n', s', h1, by omega, hne n' h2⟩

/-- One variable: unchanged if it isn't zero, else set from the line, if there is one. -/
theorem scan_comp {σ α : Type} [DecidableEq α] (zero : α) (fields : List (Field σ)) (c : σ → α) (k : String) (real : α) (tok : Tok) (fk : Field σ)
    (hfind : fields.find? (fun f => f.key == k) = some fk) (hz : ∀ s, fk.isZero s = decide (c s = zero))
    (hset : ∀ s s', fk.set tok s = some s' → c s' = real)
    (hother : ∀ f ∈ fields, f.key ≠ k → ∀ v s s', f.set v s = some s' → c s' = c s) :
    ∀ (lines : List (Option (String × Tok))), (∀ v, some (k, v) ∈ lines → v = tok) → ∀ (n : Nat) (s : σ) (n' : Nat) (s' : σ), scanLines fields lines n s = .ok (n', s') →
      (c s = zero ∧ has lines k → c s' = real) ∧ (¬ (c s = zero ∧ has lines k) → c s' = c s) := by
  intro lines
  induction lines with
  | nil =>
    intro _ n s n' s' h
    cases h
    exact ⟨(fun ⟨_, v, hv⟩ => by cases hv), fun _ => rfl⟩
  | cons l r ih =>
    intro hl n s n' s' h
    have hlr : ∀ v, some (k, v) ∈ r → v = tok := fun v hv => hl v (List.mem_cons_of_mem _ hv)
    cases l with
    | none =>
      have := ih hlr n s n' s' h
      have hh : has (none :: r) k ↔ has r k := by unfold has; simp
      rw [hh]; exact this
    | some kv =>
      obtain ⟨k', v⟩ := kv
      unfold scanLines at h
      by_cases hk : k' = k
      · subst hk
        have htrue : has (some (k', v) :: r) k' := ⟨v, List.mem_cons_self ..⟩
        have hv := hl v (List.mem_cons_self ..)
        subst hv
        rw [hfind] at h
        simp only at h
        by_cases hc : c s = zero
        · rw [if_neg (by rw [hz, hc]; simp)] at h
          cases hs : fk.set v s with
          | none => rw [hs] at h; cases h
          | some s1 =>
            rw [hs] at h
            simp only at h
            have := ih hlr _ s1 n' s' h
            have h1 := hset s s1 hs
            refine ⟨fun _ => ?_, fun hn => absurd ⟨hc, htrue⟩ hn⟩
            by_cases hx : c s1 = zero ∧ has r k'
            · exact this.1 hx
            · rw [this.2 hx, h1]
        · rw [if_pos (by rw [hz]; simp [hc])] at h
          have := ih hlr _ s n' s' h
          exact ⟨fun hx => absurd hx.1 hc, fun _ => this.2 (fun hx => hc hx.1)⟩
      · have hh : has (some (k', v) :: r) k ↔ has r k := by
          unfold has
          refine ⟨fun ⟨w, hw⟩ => ?_, fun ⟨w, hw⟩ => ⟨w, List.mem_cons_of_mem _ hw⟩⟩
          rcases List.mem_cons.mp hw with e | e
          · cases e; exact absurd rfl hk
          · exact ⟨w, e⟩
        rw [hh]
        cases hf : fields.find? (fun f => f.key == k') with
        | none => rw [hf] at h; exact ih hlr n s n' s' h
        | some f =>
          rw [hf] at h
          simp only at h
          have hmem := List.mem_of_find?_eq_some hf
          have hkey : f.key = k' := by simpa using List.find?_some hf
          by_cases hzz : f.isZero s = false
          · rw [if_pos hzz] at h; exact ih hlr _ s n' s' h
          · rw [if_neg hzz] at h
            cases hs : f.set v s with
            | none => rw [hs] at h; cases h
            | some s1 =>
              rw [hs] at h
              have := ih hlr _ s1 n' s' h
              rw [hother f hmem (by rw [hkey]; exact hk) v s s1 hs] at this
              exact this

theorem scanNum_some {σ : Type} {max : Nat} {f : Nat → σ → σ} {v : Tok} {s s' : σ} (h : scanNum max f v s = some s') : ∃ n, v = .num n ∧ s' = f n s := by
  cases v with
  | word w => cases h
  | num n =>
    simp only [scanNum] at h
    by_cases hc : n < max
    · rw [if_pos hc] at h; exact ⟨n, rfl, (Option.some.inj h).symm⟩
    · rw [if_neg hc] at h; cases h

theorem scanWord_some {σ : Type} {f : List Nat → σ → σ} {v : Tok} {s s' : σ} (h : scanWord f v s = some s') : ∃ w, v = .word w ∧ s' = f w s := by
  cases v with
  | num w => cases h
  | word n =>
    simp only [scanWord] at h
    by_cases hc : n = []
    · rw [if_pos hc] at h; cases h
    · rw [if_neg hc] at h; exact ⟨n, rfl, (Option.some.inj h).symm⟩

theorem map_set {f : Field (Nat × MapInfo)} (hf : f ∈ mapFields) {v : Tok} {s s' : Nat × MapInfo} (hs : f.set v s = some s') :
    ∃ n, v = .num n ∧ (f.key = "map_type" ∧ s' = (n, s.2) ∨
      f.key = "map_id" ∧ s' = (s.1, { s.2 with id := n }) ∨
      f.key = "key_size" ∧ s' = (s.1, { s.2 with keySize := n }) ∨
      f.key = "value_size" ∧ s' = (s.1, { s.2 with valueSize := n }) ∨
      f.key = "max_entries" ∧ s' = (s.1, { s.2 with maxEntries := n }) ∨
      f.key = "map_flags" ∧ s' = (s.1, { s.2 with flags := n }) ∨
      f.key = "map_extra" ∧ s' = (s.1, { s.2 with extra := n }) ∨
      f.key = "memlock" ∧ s' = (s.1, { s.2 with memlock := n }) ∨
      f.key = "frozen" ∧ s' = (s.1, { s.2 with frozen := n == 1 })) := by
  simp only [mapFields, List.mem_cons, List.mem_nil_iff, or_false] at hf
  rcases hf with rfl | rfl | rfl | rfl | rfl | rfl | rfl | rfl | rfl <;> obtain ⟨n, h1, h2⟩ := scanNum_some hs <;> refine ⟨n, h1, ?_⟩ <;> simp [h2]

/-- All the variables of a map. -/
theorem map_scan (m : KMap) (hm : SaneMap m) (lines : List (Option (String × Tok))) (hf : MapFile m lines) (t0 : Nat) (mi : MapInfo) :
    ∃ n s', scanLines mapFields lines 0 (t0, mi) = .ok (n, s') ∧ (n = 0 ↔ ∀ k v f, some (k, v) ∈ lines → f ∈ mapFields → f.key ≠ k) := by
  obtain ⟨n', s', h1, _, h3⟩ := scan_ok mapFields lines 0 (t0, mi) (fun k v f hl hfm hk s => by
    simp only [mapFields, List.mem_cons, List.mem_nil_iff, or_false] at hfm
    have hmb : m.frozen.toNat < 2 := by cases m.frozen <;> decide
    rcases hfm with rfl | rfl | rfl | rfl | rfl | rfl | rfl | rfl | rfl <;> simp only at hk <;> subst hk
    · rw [hf.typ v hl]; have := hm.typ; exact ⟨_, by simp only [scanNum]; rw [if_pos (by omega)]⟩
    · rw [hf.id v hl]; exact ⟨_, by simp only [scanNum]; rw [if_pos hm.id]⟩
    · rw [hf.keySize v hl]; exact ⟨_, by simp only [scanNum]; rw [if_pos hm.keySize]⟩
    · rw [hf.valueSize v hl]; exact ⟨_, by simp only [scanNum]; rw [if_pos hm.valueSize]⟩
    · rw [hf.maxEntries v hl]; exact ⟨_, by simp only [scanNum]; rw [if_pos hm.maxEntries]⟩
    · rw [hf.flags v hl]; exact ⟨_, by simp only [scanNum]; rw [if_pos hm.flags]⟩
    · rw [hf.extra v hl]; exact ⟨_, by simp only [scanNum]; rw [if_pos hm.extra]⟩
    · rw [hf.memlock v hl]; exact ⟨_, by simp only [scanNum]; rw [if_pos hm.memlock]⟩
    · rw [hf.frozen v hl]; exact ⟨_, by simp only [scanNum]; rw [if_pos hmb]⟩)
  exact ⟨n', s', h1, h3⟩

/-- From zero or not. -/
theorem known_of {known : Prop} {real a got : Nat} {line : Prop} (ha : a = 0 ∨ a = real) (hk : known ↔ (a = real ∨ line))
    (h : (a = 0 ∧ line → got = real) ∧ (¬ (a = 0 ∧ line) → got = a)) : Known known real got := by
  by_cases hx : a = 0 ∧ line
  · exact ⟨fun _ => h.1 hx, fun hn => absurd (hk.mpr (.inr hx.2)) hn⟩
  · have hg := h.2 hx
    refine ⟨fun hkn => ?_, fun hn => ?_⟩
    · rcases hk.mp hkn with h1 | h1
      · rw [hg, h1]
      · rcases ha with h0 | h0
        · exact absurd ⟨h0, h1⟩ hx
        · rw [hg, h0]
    · rcases ha with h0 | h0
      · rw [hg, h0]
      · exact absurd (hk.mpr (.inl h0)) hn

theorem num_set {max : Nat} {f : Nat → Nat × MapInfo → Nat × MapInfo} {n : Nat} {s s' : Nat × MapInfo} (h : scanNum max f (.num n) s = some s') : s' = f n s := by
  obtain ⟨m, hm, rfl⟩ := scanNum_some h
  cases hm; rfl

/-- The variables after reading fdinfo. -/
structure Scanned (m : KMap) (lines : List (Option (String × Tok))) (a b : Nat × MapInfo) : Prop where
  typ : (a.1 = 0 ∧ has lines "map_type" → b.1 = m.typ) ∧ (¬ (a.1 = 0 ∧ has lines "map_type") → b.1 = a.1)
  id : (a.2.id = 0 ∧ has lines "map_id" → b.2.id = m.id) ∧ (¬ (a.2.id = 0 ∧ has lines "map_id") → b.2.id = a.2.id)
  keySize : (a.2.keySize = 0 ∧ has lines "key_size" → b.2.keySize = m.keySize) ∧ (¬ (a.2.keySize = 0 ∧ has lines "key_size") → b.2.keySize = a.2.keySize)
  valueSize : (a.2.valueSize = 0 ∧ has lines "value_size" → b.2.valueSize = m.valueSize) ∧ (¬ (a.2.valueSize = 0 ∧ has lines "value_size") → b.2.valueSize = a.2.valueSize)
  maxEntries : (a.2.maxEntries = 0 ∧ has lines "max_entries" → b.2.maxEntries = m.maxEntries) ∧ (¬ (a.2.maxEntries = 0 ∧ has lines "max_entries") → b.2.maxEntries = a.2.maxEntries)
  flags : (a.2.flags = 0 ∧ has lines "map_flags" → b.2.flags = m.flags) ∧ (¬ (a.2.flags = 0 ∧ has lines "map_flags") → b.2.flags = a.2.flags)
  extra : (a.2.extra = 0 ∧ has lines "map_extra" → b.2.extra = m.extra) ∧ (¬ (a.2.extra = 0 ∧ has lines "map_extra") → b.2.extra = a.2.extra)
  memlock : (a.2.memlock = 0 ∧ has lines "memlock" → b.2.memlock = m.memlock) ∧ (¬ (a.2.memlock = 0 ∧ has lines "memlock") → b.2.memlock = a.2.memlock)
  frozen : (a.2.frozen = false ∧ has lines "frozen" → b.2.frozen = m.frozen) ∧ (¬ (a.2.frozen = false ∧ has lines "frozen") → b.2.frozen = a.2.frozen)
  rest : b.2.typ = a.2.typ ∧ b.2.name = a.2.name ∧ b.2.btf = a.2.btf

theorem map_scanned (m : KMap) (lines : List (Option (String × Tok))) (hf : MapFile m lines) (a b : Nat × MapInfo) (n n' : Nat)
    (h : scanLines mapFields lines n a = .ok (n', b)) : Scanned m lines a b where
  typ := scan_comp 0 mapFields (fun s => s.1) "map_type" m.typ (.num m.typ) _ rfl (fun s => rfl) (fun s s' hs => by simp only at hs; have := num_set hs; subst this; rfl) (fun f hf hk v s s' hs => by obtain ⟨n, _, h⟩ := map_set hf hs; rcases h with ⟨e, rfl⟩ | ⟨e, rfl⟩ | ⟨e, rfl⟩ | ⟨e, rfl⟩ | ⟨e, rfl⟩ | ⟨e, rfl⟩ | ⟨e, rfl⟩ | ⟨e, rfl⟩ | ⟨e, rfl⟩ <;> first | exact absurd e hk | rfl) lines hf.typ n a n' b h
  id := scan_comp 0 mapFields (fun s => s.2.id) "map_id" m.id (.num m.id) _ rfl (fun s => rfl) (fun s s' hs => by simp only at hs; have := num_set hs; subst this; rfl) (fun f hf hk v s s' hs => by obtain ⟨n, _, h⟩ := map_set hf hs; rcases h with ⟨e, rfl⟩ | ⟨e, rfl⟩ | ⟨e, rfl⟩ | ⟨e, rfl⟩ | ⟨e, rfl⟩ | ⟨e, rfl⟩ | ⟨e, rfl⟩ | ⟨e, rfl⟩ | ⟨e, rfl⟩ <;> first | exact absurd e hk | rfl) lines hf.id n a n' b h
  keySize := scan_comp 0 mapFields (fun s => s.2.keySize) "key_size" m.keySize (.num m.keySize) _ rfl (fun s => rfl) (fun s s' hs => by simp only at hs; have := num_set hs; subst this; rfl) (fun f hf hk v s s' hs => by obtain ⟨n, _, h⟩ := map_set hf hs; rcases h with ⟨e, rfl⟩ | ⟨e, rfl⟩ | ⟨e, rfl⟩ | ⟨e, rfl⟩ | ⟨e, rfl⟩ | ⟨e, rfl⟩ | ⟨e, rfl⟩ | ⟨e, rfl⟩ | ⟨e, rfl⟩ <;> first | exact absurd e hk | rfl) lines hf.keySize n a n' b h
  valueSize := scan_comp 0 mapFields (fun s => s.2.valueSize) "value_size" m.valueSize (.num m.valueSize) _ rfl (fun s => rfl) (fun s s' hs => by simp only at hs; have := num_set hs; subst this; rfl) (fun f hf hk v s s' hs => by obtain ⟨n, _, h⟩ := map_set hf hs; rcases h with ⟨e, rfl⟩ | ⟨e, rfl⟩ | ⟨e, rfl⟩ | ⟨e, rfl⟩ | ⟨e, rfl⟩ | ⟨e, rfl⟩ | ⟨e, rfl⟩ | ⟨e, rfl⟩ | ⟨e, rfl⟩ <;> first | exact absurd e hk | rfl) lines hf.valueSize n a n' b h
  maxEntries := scan_comp 0 mapFields (fun s => s.2.maxEntries) "max_entries" m.maxEntries (.num m.maxEntries) _ rfl (fun s => rfl) (fun s s' hs => by simp only at hs; have := num_set hs; subst this; rfl) (fun f hf hk v s s' hs => by obtain ⟨n, _, h⟩ := map_set hf hs; rcases h with ⟨e, rfl⟩ | ⟨e, rfl⟩ | ⟨e, rfl⟩ | ⟨e, rfl⟩ | ⟨e, rfl⟩ | ⟨e, rfl⟩ | ⟨e, rfl⟩ | ⟨e, rfl⟩ | ⟨e, rfl⟩ <;> first | exact absurd e hk | rfl) lines hf.maxEntries n a n' b h
  flags := scan_comp 0 mapFields (fun s => s.2.flags) "map_flags" m.flags (.num m.flags) _ rfl (fun s => rfl) (fun s s' hs => by simp only at hs; have := num_set hs; subst this; rfl) (fun f hf hk v s s' hs => by obtain ⟨n, _, h⟩ := map_set hf hs; rcases h with ⟨e, rfl⟩ | ⟨e, rfl⟩ | ⟨e, rfl⟩ | ⟨e, rfl⟩ | ⟨e, rfl⟩ | ⟨e, rfl⟩ | ⟨e, rfl⟩ | ⟨e, rfl⟩ | ⟨e, rfl⟩ <;> first | exact absurd e hk | rfl) lines hf.flags n a n' b h
  extra := scan_comp 0 mapFields (fun s => s.2.extra) "map_extra" m.extra (.num m.extra) _ rfl (fun s => rfl) (fun s s' hs => by simp only at hs; have := num_set hs; subst this; rfl) (fun f hf hk v s s' hs => by obtain ⟨n, _, h⟩ := map_set hf hs; rcases h with ⟨e, rfl⟩ | ⟨e, rfl⟩ | ⟨e, rfl⟩ | ⟨e, rfl⟩ | ⟨e, rfl⟩ | ⟨e, rfl⟩ | ⟨e, rfl⟩ | ⟨e, rfl⟩ | ⟨e, rfl⟩ <;> first | exact absurd e hk | rfl) lines hf.extra n a n' b h
  memlock := scan_comp 0 mapFields (fun s => s.2.memlock) "memlock" m.memlock (.num m.memlock) _ rfl (fun s => rfl) (fun s s' hs => by simp only at hs; have := num_set hs; subst this; rfl) (fun f hf hk v s s' hs => by obtain ⟨n, _, h⟩ := map_set hf hs; rcases h with ⟨e, rfl⟩ | ⟨e, rfl⟩ | ⟨e, rfl⟩ | ⟨e, rfl⟩ | ⟨e, rfl⟩ | ⟨e, rfl⟩ | ⟨e, rfl⟩ | ⟨e, rfl⟩ | ⟨e, rfl⟩ <;> first | exact absurd e hk | rfl) lines hf.memlock n a n' b h
  frozen := scan_comp false mapFields (fun s => s.2.frozen) "frozen" m.frozen (.num m.frozen.toNat) _ rfl (fun s => by cases h : s.2.frozen <;> simp [h]) (fun s s' hs => by simp only at hs; have := num_set hs; subst this; cases m.frozen <;> rfl) (fun f hf hk v s s' hs => by obtain ⟨n, _, h⟩ := map_set hf hs; rcases h with ⟨e, rfl⟩ | ⟨e, rfl⟩ | ⟨e, rfl⟩ | ⟨e, rfl⟩ | ⟨e, rfl⟩ | ⟨e, rfl⟩ | ⟨e, rfl⟩ | ⟨e, rfl⟩ | ⟨e, rfl⟩ <;> first | exact absurd e hk | rfl) lines hf.frozen n a n' b h
  rest := by
    have key : ∀ (lines : List (Option (String × Tok))) (n : Nat) (a : Nat × MapInfo), scanLines mapFields lines n a = .ok (n', b) → b.2.typ = a.2.typ ∧ b.2.name = a.2.name ∧ b.2.btf = a.2.btf := by
      intro lines
      induction lines with
      | nil => intro n a h; cases h; exact ⟨rfl, rfl, rfl⟩
      | cons l r ih =>
        intro n a h
        cases l with
        | none => exact ih n a h
        | some kv =>
          obtain ⟨k, v⟩ := kv
          unfold scanLines at h
          cases hff : mapFields.find? (fun f => f.key == k) with
          | none => rw [hff] at h; exact ih n a h
          | some f =>
            rw [hff] at h
            simp only at h
            by_cases hz : f.isZero a = false
            · rw [if_pos hz] at h; exact ih _ a h
            · rw [if_neg hz] at h
              cases hs : f.set v a with
              | none => rw [hs] at h; cases h
              | some s1 =>
                rw [hs] at h
                have := ih _ s1 h
                obtain ⟨x, _, hc⟩ := map_set (List.mem_of_find?_eq_some hff) hs
                rcases hc with ⟨_, rfl⟩ | ⟨_, rfl⟩ | ⟨_, rfl⟩ | ⟨_, rfl⟩ | ⟨_, rfl⟩ | ⟨_, rfl⟩ | ⟨_, rfl⟩ | ⟨_, rfl⟩ | ⟨_, rfl⟩ <;> exact this
    exact key lines n a h

theorem cstr_pad (l : List Nat) (n : Nat) (h : 0 ∉ l) : cstr (l ++ List.replicate n 0) = l := by
  unfold cstr
  rw [List.takeWhile_append_of_pos]
  · cases n with
    | zero => simp
    | succ n => simp [List.replicate_succ]
  · intro a ha
    simp only [bne_iff_ne, ne_eq]
    intro h0; subst h0; exact h ha

/-- C83: a map is described as it is; what only newer kernels say is right or missing. -/
theorem mapInfo_exact (m : KMap) (hm : SaneMap m) (ht : m.typ ≠ 0) (info : KMapInfo) (hr : Reply m info) (lines : List (Option (String × Tok))) (hf : MapFile m lines) :
    ∃ mi, newMapInfo (.ok info) (some lines) = .ok mi ∧ mi.typ = m.typ ∧ mi.id = m.id ∧ mi.keySize = m.keySize ∧ mi.valueSize = m.valueSize ∧ mi.maxEntries = m.maxEntries ∧
      mi.flags = m.flags ∧ (mi.name = m.name ∨ mi.name = [] ∧ info.name = List.replicate 16 0) ∧ mi.btf = info.btf ∧ Known (info.extra = m.extra ∨ has lines "map_extra") m.extra mi.extra ∧
      Known (has lines "memlock") m.memlock mi.memlock ∧ (mi.frozen = true ↔ m.frozen = true ∧ has lines "frozen") := by
  obtain ⟨n, b, h1, h2⟩ := map_scan m hm lines hf 0 (mapInfoOf info)
  have hs := map_scanned m lines hf _ _ _ _ h1
  have hname : cstr info.name = m.name ∨ cstr info.name = [] ∧ info.name = List.replicate 16 0 := by
    rcases hr.name with h | h
    · left; rw [h]; exact cstr_pad _ _ hm.name.2
    · right; exact ⟨by rw [h]; rfl, h⟩
  have hnot : (¬ has lines "memlock") → (¬ has lines "frozen") → (¬ has lines "map_extra") → ∀ mi, mi = mapInfoOf info → mi.typ = m.typ ∧ mi.id = m.id ∧ mi.keySize = m.keySize ∧ mi.valueSize = m.valueSize ∧ mi.maxEntries = m.maxEntries ∧
      mi.flags = m.flags ∧ (mi.name = m.name ∨ mi.name = [] ∧ info.name = List.replicate 16 0) ∧ mi.btf = info.btf ∧ Known (info.extra = m.extra ∨ has lines "map_extra") m.extra mi.extra ∧
      Known (has lines "memlock") m.memlock mi.memlock ∧ (mi.frozen = true ↔ m.frozen = true ∧ has lines "frozen") := by
    rintro n1 n2 n3 mi rfl
    refine ⟨hr.typ, hr.id, hr.keySize, hr.valueSize, hr.maxEntries, hr.flags, hname, rfl, ?_, ⟨fun h => absurd h n1, fun _ => rfl⟩, ⟨(fun h => by cases h), fun h => absurd h.2 n2⟩⟩
    exact ⟨fun h => h.elim id (fun h => absurd h n3), fun h => (hr.extra).elim id (fun hx => absurd (.inl hx) h)⟩
  unfold newMapInfo readMapInfoFromProc scanFdInfo
  have htok : typeOk info.typ = true := by unfold typeOk; rw [hr.typ]; simpa using hm.typ
  simp only [htok, Bool.true_eq_false, if_false, h1]
  by_cases hn : n = 0
  · rw [if_pos ⟨by decide, hn⟩]
    simp only
    have hno := h2.mp hn
    have nk : ∀ k, (∃ f ∈ mapFields, f.key = k) → ¬ has lines k := fun k ⟨f, hf1, hf2⟩ ⟨v, hv⟩ => hno k v f hv hf1 hf2
    exact ⟨_, rfl, hnot (nk _ (by simp [mapFields])) (nk _ (by simp [mapFields])) (nk _ (by simp [mapFields])) _ rfl⟩
  · rw [if_neg (fun h => hn h.2)]
    simp only
    have htyp : b.2.typ = m.typ := by rw [hs.rest.1]; exact hr.typ
    rw [if_neg (by rw [htyp]; exact ht)]
    refine ⟨_, rfl, htyp, ?_, ?_, ?_, ?_, ?_, (by rw [hs.rest.2.1]; exact hname), hs.rest.2.2, ?_, ?_, ?_⟩
    · by_cases hx : (mapInfoOf info).id = 0 ∧ has lines "map_id"
      · exact hs.id.1 hx
      · rw [hs.id.2 hx]; exact hr.id
    · by_cases hx : (mapInfoOf info).keySize = 0 ∧ has lines "key_size"
      · exact hs.keySize.1 hx
      · rw [hs.keySize.2 hx]; exact hr.keySize
    · by_cases hx : (mapInfoOf info).valueSize = 0 ∧ has lines "value_size"
      · exact hs.valueSize.1 hx
      · rw [hs.valueSize.2 hx]; exact hr.valueSize
    · by_cases hx : (mapInfoOf info).maxEntries = 0 ∧ has lines "max_entries"
      · exact hs.maxEntries.1 hx
      · rw [hs.maxEntries.2 hx]; exact hr.maxEntries
    · by_cases hx : (mapInfoOf info).flags = 0 ∧ has lines "map_flags"
      · exact hs.flags.1 hx
      · rw [hs.flags.2 hx]; exact hr.flags
    · exact known_of hr.extra Iff.rfl hs.extra
    · refine ⟨fun h => hs.memlock.1 ⟨rfl, h⟩, fun h => hs.memlock.2 (fun hx => h hx.2)⟩
    · by_cases hx : has lines "frozen"
      · rw [hs.frozen.1 ⟨rfl, hx⟩]; exact ⟨fun h => ⟨h, hx⟩, fun h => h.1⟩
      · rw [hs.frozen.2 (fun h => hx h.2)]; exact ⟨(fun h => by cases h), fun h => absurd h.2 hx⟩

/-- C83: without the system call, fdinfo is used; without both there is an error. -/
theorem mapInfo_fdinfo (m : KMap) (hm : SaneMap m) (lines : List (Option (String × Tok))) (hf : MapFile m lines) :
    (has lines "map_type" → ∃ mi, newMapInfo (.error .einval) (some lines) = .ok mi ∧ mi.typ = m.typ ∧ Known (has lines "map_id") m.id mi.id ∧ Known (has lines "key_size") m.keySize mi.keySize ∧
      Known (has lines "value_size") m.valueSize mi.valueSize ∧ Known (has lines "max_entries") m.maxEntries mi.maxEntries ∧ Known (has lines "map_flags") m.flags mi.flags ∧
      Known (has lines "map_extra") m.extra mi.extra ∧ Known (has lines "memlock") m.memlock mi.memlock ∧ (mi.frozen = true ↔ m.frozen = true ∧ has lines "frozen")) ∧
    ((∀ k ∈ ["map_type", "map_id", "key_size", "value_size", "max_entries", "map_flags", "map_extra", "memlock", "frozen"], ¬ has lines k) → newMapInfo (.error .einval) (some lines) = .error .notSupported) ∧
    (∀ e, e ≠ .einval → ∀ file, newMapInfo (.error e) file = .error e) := by
  obtain ⟨n, b, h1, h2⟩ := map_scan m hm lines hf 0 (mapInfoOf noMapInfo)
  have hs := map_scanned m lines hf _ _ _ _ h1
  have kn : ∀ {real got : Nat} {line : Prop}, ((0 = 0 ∧ line → got = real) ∧ (¬ (0 = 0 ∧ line) → got = 0)) → Known line real got :=
    fun h => ⟨fun hl => h.1 ⟨rfl, hl⟩, fun hl => h.2 (fun hx => hl hx.2)⟩
  refine ⟨fun ht => ?_, fun hno => ?_, fun e he file => by cases e <;> first | rfl | exact absurd rfl he⟩
  · have hn : n ≠ 0 := by
      intro hn
      obtain ⟨v, hv⟩ := ht
      exact h2.mp hn "map_type" v _ hv (List.mem_cons_self ..) rfl
    unfold newMapInfo readMapInfoFromProc scanFdInfo
    simp only [h1]
    rw [if_neg (fun h => hn h.2)]
    simp only
    have hbt : b.1 = m.typ := hs.typ.1 ⟨rfl, ht⟩
    rw [if_pos (by rw [hs.rest.1]; rfl), if_pos (by rw [hbt]; unfold typeOk; simpa using hm.typ)]
    refine ⟨_, rfl, hbt, kn hs.id, kn hs.keySize, kn hs.valueSize, kn hs.maxEntries, kn hs.flags, kn hs.extra, kn hs.memlock, ?_⟩
    by_cases hx : has lines "frozen"
    · show b.2.frozen = true ↔ _
      rw [hs.frozen.1 ⟨rfl, hx⟩]; exact ⟨fun h => ⟨h, hx⟩, fun h => h.1⟩
    · show b.2.frozen = true ↔ _
      rw [hs.frozen.2 (fun h => hx h.2)]; exact ⟨(fun h => by cases h), fun h => absurd h.2 hx⟩
  · have hn : n = 0 := h2.mpr (by
      intro k v f hl hfm hk
      refine hno k ?_ ⟨v, hl⟩
      simp only [mapFields, List.mem_cons, List.mem_nil_iff, or_false] at hfm
      rcases hfm with rfl | rfl | rfl | rfl | rfl | rfl | rfl | rfl | rfl <;> subst hk <;> simp)
    unfold newMapInfo readMapInfoFromProc scanFdInfo
    simp only [h1]
    rw [if_pos ⟨by decide, hn⟩]

/-! ## Programs -/

theorem prog_set {f : Field (Nat × PInfo)} (hf : f ∈ progFields) {v : Tok} {s s' : Nat × PInfo} (hs : f.set v s = some s') :
    (f.key = "prog_type" ∧ ∃ n, v = .num n ∧ s' = (n, s.2)) ∨ (f.key = "prog_tag" ∧ ∃ w, v = .word w ∧ s' = (s.1, { s.2 with tag := w })) ∨
      (f.key = "memlock" ∧ ∃ n, v = .num n ∧ s' = (s.1, { s.2 with memlock := n })) := by
  simp only [progFields, List.mem_cons, List.mem_nil_iff, or_false] at hf
  rcases hf with rfl | rfl | rfl
  · obtain ⟨n, h1, h2⟩ := scanNum_some hs; exact .inl ⟨rfl, n, h1, h2⟩
  · obtain ⟨n, h1, h2⟩ := scanWord_some hs; exact .inr (.inl ⟨rfl, n, h1, h2⟩)
  · obtain ⟨n, h1, h2⟩ := scanNum_some hs; exact .inr (.inr ⟨rfl, n, h1, h2⟩)

theorem hex_ne {l : List Nat} (h : l ≠ []) : hex l ≠ [] := by
  cases l with
  | nil => exact absurd rfl h
  | cons a r => intro h; cases h

/-- Reading a program's fdinfo. -/
theorem prog_file (p : KProg) (hp : Sane p) (lines : List (Option (String × Tok))) (hf : ProgFile p lines) (pi : PInfo) (htag : pi.tag ≠ []) (hml : pi.memlock = 0) :
    (readProgramInfoFromProc (some lines) pi = .error .notSupported ∧ ¬ has lines "memlock") ∨
    (readProgramInfoFromProc (some lines) pi = .ok { pi with typ := p.typ, memlock := if some ("memlock", Tok.num p.memlock) ∈ lines then p.memlock else 0 }) := by
  obtain ⟨n, b, h1, _, h2⟩ := scan_ok progFields lines 0 (0, pi) (fun k v f hl hfm hk s => by
    simp only [progFields, List.mem_cons, List.mem_nil_iff, or_false] at hfm
    rcases hfm with rfl | rfl | rfl <;> simp only at hk <;> subst hk
    · rw [hf.1 v hl]; have := hp.typ.2; exact ⟨_, by simp only [scanNum]; rw [if_pos (by omega)]⟩
    · rw [hf.2.1 v hl]; exact ⟨_, by simp only [scanWord]; rw [if_neg (hex_ne hp.tag)]⟩
    · rw [hf.2.2.1 v hl]; exact ⟨_, by simp only [scanNum]; rw [if_pos hp.memlock]⟩)
  have ht := scan_comp 0 progFields (fun s => s.1) "prog_type" p.typ (.num p.typ) _ rfl (fun s => rfl) (fun s s' hs => by
      simp only at hs; obtain ⟨x, hx, rfl⟩ := scanNum_some hs; cases hx; rfl)
    (fun f hf hk v s s' hs => by rcases prog_set hf hs with ⟨e, _, _, rfl⟩ | ⟨e, _, _, rfl⟩ | ⟨e, _, _, rfl⟩ <;> first | exact absurd e hk | rfl) lines hf.1 0 (0, pi) n b h1
  have hm := scan_comp 0 progFields (fun s => s.2.memlock) "memlock" p.memlock (.num p.memlock) _ rfl (fun s => rfl) (fun s s' hs => by
      simp only at hs; obtain ⟨x, hx, rfl⟩ := scanNum_some hs; cases hx; rfl)
    (fun f hf hk v s s' hs => by rcases prog_set hf hs with ⟨e, _, _, rfl⟩ | ⟨e, _, _, rfl⟩ | ⟨e, _, _, rfl⟩ <;> first | exact absurd e hk | rfl) lines hf.2.2.1 0 (0, pi) n b h1
  have hrest : ∀ (lines : List (Option (String × Tok))) (n : Nat) (a : Nat × PInfo) (n' : Nat) (b : Nat × PInfo), a.2.tag ≠ [] → scanLines progFields lines n a = .ok (n', b) → b.2 = { a.2 with memlock := b.2.memlock } := by
    intro lines
    induction lines with
    | nil => intro n a n' b _ h; cases h; rfl
    | cons l r ih =>
      intro n a n' b ha h
      cases l with
      | none => exact ih n a n' b ha h
      | some kv =>
        obtain ⟨k, v⟩ := kv
        unfold scanLines at h
        cases hff : progFields.find? (fun f => f.key == k) with
        | none => rw [hff] at h; exact ih n a n' b ha h
        | some f =>
          rw [hff] at h
          simp only at h
          by_cases hz : f.isZero a = false
          · rw [if_pos hz] at h; exact ih _ a n' b ha h
          · rw [if_neg hz] at h
            cases hs : f.set v a with
            | none => rw [hs] at h; cases h
            | some s1 =>
              rw [hs] at h
              have hmem := List.mem_of_find?_eq_some hff
              rcases prog_set hmem hs with ⟨e, _, _, rfl⟩ | ⟨e, _, _, rfl⟩ | ⟨e, _, _, rfl⟩
              · simp only at h
                have := fun ht => ih _ _ n' b ht h
                exact this ha
              · exfalso
                simp only [progFields, List.mem_cons, List.mem_nil_iff, or_false] at hmem
                rcases hmem with rfl | rfl | rfl
                · exact absurd e (by decide)
                · simp [ha] at hz
                · exact absurd e (by decide)
              · simp only at h
                have := fun ht => ih _ _ n' b ht h
                exact this ha
  have hb := hrest lines 0 (0, pi) n b htag h1
  unfold readProgramInfoFromProc scanFdInfo
  simp only [h1]
  by_cases hn : n = 0
  · left
    rw [if_pos ⟨by decide, hn⟩]
    exact ⟨rfl, fun ⟨v, hv⟩ => h2.mp hn "memlock" v _ hv (List.mem_cons_of_mem _ (List.mem_cons_of_mem _ (List.mem_cons_self ..))) rfl⟩
  · right
    rw [if_neg (fun h => hn h.2)]
    simp only
    have hty : some ("prog_type", Tok.num p.typ) ∈ lines := by
      apply Decidable.byContradiction
      intro hno
      apply hn
      apply h2.mpr
      intro k v f hl hfm hk
      simp only [progFields, List.mem_cons, List.mem_nil_iff, or_false] at hfm
      rcases hfm with rfl | rfl | rfl <;> simp only at hk <;> subst hk
      · rw [hf.1 v hl] at hl; exact hno hl
      · exact hno (hf.2.2.2 v (.inl hl))
      · exact hno (hf.2.2.2 v (.inr hl))
    have hb1 : b.1 = p.typ := ht.1 ⟨rfl, _, hty⟩
    rw [if_pos (by rw [hb1]; unfold typeOk; simpa using hp.typ.2), hb1, hb]
    congr 2
    by_cases hx : some ("memlock", Tok.num p.memlock) ∈ lines
    · rw [if_pos hx]; exact hm.1 ⟨hml, _, hx⟩
    · rw [if_neg hx]
      have := hm.2 (fun ⟨_, v, hv⟩ => hx (by rw [hf.2.2.1 v hv] at hv; exact hv))
      rw [this]; exact hml

/-- What an array looks like after asking for `n` elements. -/
structure Filled (real : List Nat) (allowed : Bool) (n : Nat) (f : Fld) : Prop where
  buf : allowed = true → f.buf = real.take n
  len : f.buf.length = n
  shown : 0 < n → allowed = true → f.ptr = true
  hidden : 0 < n → allowed = false → f.ptr = false

theorem fill_ask (real : List Nat) (allowed : Bool) (n : Nat) (hn : n ≤ real.length) : ∃ f, fill real allowed (ask n n) = some f ∧ Filled real allowed n f := by
  by_cases h0 : n = 0
  · subst h0
    refine ⟨⟨real.length, false, []⟩, rfl, fun _ => rfl, rfl, fun h => absurd h (Nat.lt_irrefl _), fun h => absurd h (Nat.lt_irrefl _)⟩
  · have hpos : 0 < n := by omega
    have hask : ask n n = ⟨n, true, List.replicate n 0⟩ := by unfold ask; rw [if_pos hpos]; simp [hpos]
    have hne : real ≠ [] := by intro h; rw [h] at hn; simp at hn; omega
    rw [hask]
    unfold fill
    rw [if_neg (by simp [h0, hne])]
    cases allowed with
    | false => exact ⟨_, rfl, (fun h => by cases h), (by simp), (fun _ h => by cases h), fun _ _ => rfl⟩
    | true =>
      have hmin : min n real.length = n := by omega
      simp only [Bool.true_eq_false, if_false, List.length_replicate, hmin, Nat.lt_irrefl, or_self]
      refine ⟨_, rfl, fun _ => ?_, ?_, fun _ _ => rfl, (fun _ h => by cases h)⟩
      · simp
      · simp [Nat.min_eq_left hn]

theorem fillIf_ask (have_ : Bool) (real : List Nat) (allowed : Bool) (n : Nat) (hn : n ≤ real.length) (hh : have_ = false → n = 0) :
    ∃ f, fillIf have_ real allowed (ask n n) = some f ∧ Filled real allowed n f := by
  cases have_ with
  | true => exact fill_ask real allowed n hn
  | false =>
    have := hh rfl
    subst this
    exact ⟨.none, rfl, fun _ => rfl, rfl, fun h => absurd h (Nat.lt_irrefl _), fun h => absurd h (Nat.lt_irrefl _)⟩

theorem recCap_eq (size n : Nat) (hs : 0 < size) (h : size * n < 2 ^ 32) : recCap size n = n := by
  unfold recCap
  rw [Nat.mod_eq_of_lt h, Nat.mul_div_cancel_left _ hs]

/-- The counts the kernel gives. -/
structure Counts (ke : KEnv) (p : KProg) (info : PI) : Prop where
  maps : info.maps.count = if 1 ≤ ke.level then p.maps.length else 0
  xlated : info.xlated.count = if ke.capable then p.xlated.length else 0
  jited : info.jited.count = if ke.capable then p.jited.length else 0
  ksyms : info.ksyms.count = if ke.capable = true ∧ 2 ≤ ke.level then p.ksyms.length else 0
  funcLens : info.funcLens.count = if ke.capable = true ∧ 2 ≤ ke.level then p.funcLens.length else 0
  funcInfo : info.funcInfo.count = if ke.capable = true ∧ 3 ≤ ke.level then p.funcInfo.length else 0
  lineInfo : info.lineInfo.count = if ke.capable = true ∧ 3 ≤ ke.level then p.lineInfo.length else 0
  jitedLine : info.jitedLine.count = if ke.capable = true ∧ 3 ≤ ke.level then p.jitedLine.length else 0
  jitedLineRec : info.jitedLineRec = if 3 ≤ ke.level then 8 else 0

/-- The first call. -/
structure First (ke : KEnv) (p : KProg) (info : PI) : Prop where
  counts : Counts ke p info
  typ : info.typ = p.typ
  id : info.id = p.id
  tag : info.tag = p.tag
  name : info.name = if 1 ≤ ke.level then p.name ++ List.replicate (16 - p.name.length) 0 else List.replicate 16 0
  loadTime : info.loadTime = if 1 ≤ ke.level then p.loadTime else 0
  uid : info.uid = if 1 ≤ ke.level then p.uid else 0
  btf : info.btf = if 3 ≤ ke.level then p.btf else 0
  verified : info.verified = if 4 ≤ ke.level then p.verified else 0

theorem fill_zero (have_ : Bool) (real : List Nat) (allowed : Bool) : fillIf have_ real allowed Fld.none = some ⟨if have_ then real.length else 0, false, []⟩ := by
  cases have_ <;> rfl

theorem fill_zero' (real : List Nat) (allowed : Bool) : fill real allowed Fld.none = some ⟨real.length, false, []⟩ := rfl

theorem first_call (ke : KEnv) (p : KProg) : ∃ info, linuxInfo ke p PI.zero = .ok info ∧ First ke p info := by
  unfold linuxInfo
  rw [if_neg (by unfold tooNew PI.zero; simp), if_neg (by unfold badRec PI.zero; simp [Fld.none])]
  have hz : PI.zero.maps = Fld.none ∧ PI.zero.xlated = Fld.none := ⟨rfl, rfl⟩
  rw [hz.1, hz.2]
  simp only [fill_zero, fill_zero']
  cases hc : ke.capable with
  | false =>
    simp only [if_true]
    refine ⟨_, rfl, ⟨?_, ?_, ?_, ?_, ?_, ?_, ?_, ?_, ?_⟩, rfl, rfl, rfl, rfl, rfl, rfl, rfl, rfl⟩ <;> simp [hc, scalars, PI.zero]
  | true =>
    simp only [Bool.true_eq_false, if_false, Fld.none, ne_eq, not_true_eq_false, false_and]
    unfold linuxRest
    simp only [scalars, PI.zero, fill_zero, fill_zero', Option.bind_some]
    refine ⟨_, rfl, ⟨?_, ?_, ?_, ?_, ?_, ?_, ?_, ?_, ?_⟩, rfl, rfl, rfl, rfl, rfl, rfl, rfl, rfl⟩ <;> simp [hc]

theorem ask_none {n cap : Nat} (h : n = 0) : ask n cap = Fld.none := by subst h; rfl

theorem ask_count (n cap : Nat) : (ask n cap).count = n := by
  unfold ask
  split
  · rfl
  · show 0 = n; omega

theorem second_call (ke : KEnv) (p : KProg) (hp : Sane p) (ms : List Nat) (hms : p.maps <+: ms) (info : PI) (hc : Counts ke p info) :
    ∃ i2, linuxInfo ke { p with maps := ms } (secondReq info) = .ok i2 ∧ Filled ms true info.maps.count i2.maps ∧
      Filled p.jited ke.rawOk info.jited.count i2.jited ∧ Filled p.ksyms ke.rawOk info.ksyms.count i2.ksyms ∧ Filled p.funcLens ke.rawOk info.funcLens.count i2.funcLens ∧
      Filled p.funcInfo true info.funcInfo.count i2.funcInfo ∧ Filled p.lineInfo true info.lineInfo.count i2.lineInfo ∧ Filled p.jitedLine ke.rawOk info.jitedLine.count i2.jitedLine := by
  have hl : recCap 16 info.lineInfo.count = info.lineInfo.count := recCap_eq 16 _ (by omega) (by
    have := hp.lines; rw [hc.lineInfo]; split <;> omega)
  have hf : recCap 8 info.funcInfo.count = info.funcInfo.count := recCap_eq 8 _ (by omega) (by
    have := hp.funcs; rw [hc.funcInfo]; split <;> omega)
  have c1 : info.maps.count ≤ ms.length := by
    have := hms.length_le
    rw [hc.maps]; split <;> omega
  have c2 : info.jited.count ≤ p.jited.length := by rw [hc.jited]; split <;> omega
  have c3 : info.ksyms.count ≤ p.ksyms.length := by rw [hc.ksyms]; split <;> omega
  have c4 : info.funcLens.count ≤ p.funcLens.length := by rw [hc.funcLens]; split <;> omega
  have c5 : info.funcInfo.count ≤ p.funcInfo.length := by rw [hc.funcInfo]; split <;> omega
  have c6 : info.lineInfo.count ≤ p.lineInfo.length := by rw [hc.lineInfo]; split <;> omega
  have c7 : info.jitedLine.count ≤ p.jitedLine.length := by rw [hc.jitedLine]; split <;> omega
  have z1 : ¬ 1 ≤ ke.level → info.maps.count = 0 := fun h => by rw [hc.maps, if_neg h]
  have z2 : ¬ 2 ≤ ke.level → info.ksyms.count = 0 ∧ info.funcLens.count = 0 := fun h => by rw [hc.ksyms, hc.funcLens, if_neg (fun hx => h hx.2), if_neg (fun hx => h hx.2)]; exact ⟨rfl, rfl⟩
  have z3 : ¬ 3 ≤ ke.level → info.funcInfo.count = 0 ∧ info.lineInfo.count = 0 ∧ info.jitedLine.count = 0 := fun h => by
    rw [hc.funcInfo, hc.lineInfo, hc.jitedLine, if_neg (fun hx => h hx.2), if_neg (fun hx => h hx.2), if_neg (fun hx => h hx.2)]; exact ⟨rfl, rfl, rfl⟩
  have hnew : ¬ tooNew ke (secondReq info) := by
    unfold tooNew secondReq
    simp only
    rintro (⟨h, hx⟩ | ⟨h, hx⟩ | ⟨h, hx⟩)
    · exact hx (ask_none (z1 (by omega)))
    · obtain ⟨a, b⟩ := z2 (by omega)
      rcases hx with hx | hx
      · exact hx (ask_none a)
      · exact hx (ask_none b)
    · obtain ⟨a, b, c⟩ := z3 (by omega)
      rcases hx with hx | hx | hx | hx | hx | hx
      · exact hx (ask_none a)
      · exact hx (ask_none b)
      · exact hx (ask_none c)
      · simp [a] at hx
      · simp [b] at hx
      · simp [c] at hx
  have hrec : ¬ (3 ≤ ke.level ∧ badRec (secondReq info)) := by
    rintro ⟨h3, h⟩
    unfold badRec secondReq at h
    simp only [ask_count] at h
    have hj := hc.jitedLineRec
    rw [if_pos h3] at hj
    rcases h with ⟨h1, h2⟩ | ⟨h1, h2⟩ | ⟨h1, h2⟩
    · by_cases hx : info.funcInfo.count > 0
      · simp [hx] at h2
      · have : info.funcInfo.count = 0 := by omega
        simp [this] at h1
    · by_cases hx : info.lineInfo.count > 0
      · simp [hx] at h2
      · have : info.lineInfo.count = 0 := by omega
        simp [this] at h1
    · by_cases hx : info.jitedLine.count > 0
      · simp [hx, hj] at h2
      · have : info.jitedLine.count = 0 := by omega
        simp [this] at h1
  obtain ⟨f1, e1, g1⟩ := fillIf_ask (decide (1 ≤ ke.level)) ms true info.maps.count c1 (fun h => z1 (by simpa using h))
  obtain ⟨f2, e2, g2⟩ := fill_ask p.jited ke.rawOk info.jited.count c2
  obtain ⟨f3, e3, g3⟩ := fillIf_ask (decide (2 ≤ ke.level)) p.ksyms ke.rawOk info.ksyms.count c3 (fun h => (z2 (by simpa using h)).1)
  obtain ⟨f4, e4, g4⟩ := fillIf_ask (decide (2 ≤ ke.level)) p.funcLens ke.rawOk info.funcLens.count c4 (fun h => (z2 (by simpa using h)).2)
  obtain ⟨f5, e5, g5⟩ := fillIf_ask (decide (3 ≤ ke.level)) p.funcInfo true info.funcInfo.count c5 (fun h => (z3 (by simpa using h)).1)
  obtain ⟨f6, e6, g6⟩ := fillIf_ask (decide (3 ≤ ke.level)) p.lineInfo true info.lineInfo.count c6 (fun h => (z3 (by simpa using h)).2.1)
  obtain ⟨f7, e7, g7⟩ := fillIf_ask (decide (3 ≤ ke.level)) p.jitedLine ke.rawOk info.jitedLine.count c7 (fun h => (z3 (by simpa using h)).2.2)
  unfold linuxInfo
  rw [if_neg hnew, if_neg hrec]
  have m1 : (secondReq info).maps = ask info.maps.count info.maps.count := rfl
  have m2 : (secondReq info).jited = ask info.jited.count info.jited.count := rfl
  have m3 : (secondReq info).ksyms = ask info.ksyms.count info.ksyms.count := rfl
  have m4 : (secondReq info).funcLens = ask info.funcLens.count info.funcLens.count := rfl
  have m5 : (secondReq info).funcInfo = ask info.funcInfo.count info.funcInfo.count := by show ask _ (recCap 8 _) = _; rw [hf]
  have m6 : (secondReq info).lineInfo = ask info.lineInfo.count info.lineInfo.count := by show ask _ (recCap 16 _) = _; rw [hl]
  have m7 : (secondReq info).jitedLine = ask info.jitedLine.count info.jitedLine.count := rfl
  have m8 : (secondReq info).xlated = Fld.none := rfl
  simp only [m1, e1, m8, fill_zero']
  cases hcap : ke.capable with
  | false =>
    have y2 : info.jited.count = 0 := by rw [hc.jited, hcap]; rfl
    have y3 : info.ksyms.count = 0 := by rw [hc.ksyms, hcap]; rfl
    have y4 : info.funcLens.count = 0 := by rw [hc.funcLens, hcap]; rfl
    have y5 : info.funcInfo.count = 0 := by rw [hc.funcInfo, hcap]; rfl
    have y6 : info.lineInfo.count = 0 := by rw [hc.lineInfo, hcap]; rfl
    have y7 : info.jitedLine.count = 0 := by rw [hc.jitedLine, hcap]; rfl
    have nil : ∀ real allowed, Filled real allowed 0 (ask 0 0) := fun _ _ => ⟨fun _ => rfl, rfl, fun h => absurd h (Nat.lt_irrefl _), fun h => absurd h (Nat.lt_irrefl _)⟩
    simp only [if_true]
    refine ⟨_, rfl, g1, ?_, ?_, ?_, ?_, ?_, ?_⟩
    · rw [y2]; simp only [m2, y2]; exact nil _ _
    · rw [y3]; simp only [m3, y3]; exact nil _ _
    · rw [y4]; simp only [m4, y4]; exact nil _ _
    · rw [y5]; simp only [m5, y5]; exact nil _ _
    · rw [y6]; simp only [m6, y6]; exact nil _ _
    · rw [y7]; simp only [m7, y7]; exact nil _ _
  | true =>
    simp only [Bool.true_eq_false, if_false, Fld.none, ne_eq, not_true_eq_false, false_and]
    unfold linuxRest
    simp only [scalars, m2, m3, m4, m5, m6, m7, e2, e3, e4, e5, e6, e7, Option.bind_some]
    exact ⟨_, rfl, g1, g2, g3, g4, g5, g6, g7⟩

theorem rest_none (ke : KEnv) (p : KProg) (r : PI) (h1 : r.jited = .none) (h2 : r.ksyms = .none) (h3 : r.funcLens = .none) (h4 : r.funcInfo = .none) (h5 : r.lineInfo = .none) (h6 : r.jitedLine = .none) :
    ∃ r', linuxRest ke p r = some r' ∧ r'.xlated = r.xlated := by
  unfold linuxRest
  simp only [h1, h2, h3, h4, h5, h6, fill_zero, fill_zero', Option.bind_some]
  exact ⟨_, rfl, rfl⟩

theorem insns_call (ke : KEnv) (p : KProg) (ms : List Nat) (info : PI) (hc : Counts ke p info) (hx : 0 < info.xlated.count) :
    ∃ i3, linuxInfo ke { p with maps := ms } (xlatedReq info) = .ok i3 ∧ Filled p.xlated (!ke.blinded || ke.rawOk) p.xlated.length i3.xlated := by
  have hcap : ke.capable = true := by
    cases h : ke.capable with
    | true => rfl
    | false => rw [hc.xlated, h] at hx; simp at hx
  have hcnt : info.xlated.count = p.xlated.length := by rw [hc.xlated, hcap]; rfl
  obtain ⟨f, e, g⟩ := fill_ask p.xlated (!ke.blinded || ke.rawOk) p.xlated.length (Nat.le_refl _)
  unfold linuxInfo
  rw [if_neg (by unfold tooNew xlatedReq PI.zero; simp), if_neg (by unfold badRec xlatedReq PI.zero; simp [Fld.none])]
  have m1 : (xlatedReq info).maps = Fld.none := rfl
  have m2 : (xlatedReq info).xlated = ask p.xlated.length p.xlated.length := by show ask _ _ = _; rw [hcnt]
  simp only [m1, m2, fill_zero, e, hcap, Bool.true_eq_false, if_false]
  split
  · exact ⟨_, rfl, g⟩
  · obtain ⟨r', h1, h2⟩ := rest_none ke { p with maps := ms } { scalars ke { p with maps := ms } ⟨if decide (1 ≤ ke.level) then ms.length else 0, false, []⟩ (xlatedReq info) with xlated := f } rfl rfl rfl rfl rfl rfl
    exact ⟨r', by rw [h1], by rw [h2]; exact g⟩

theorem take_if (c : Prop) [Decidable c] (l : List Nat) : l.take (if c then l.length else 0) = if c then l else [] := by
  split <;> simp

theorem withInsns_spec (ke : KEnv) (p : KProg) (call : Nat → PI → Except Err PI) (ms : List Nat) (hcall : call 1 = linuxInfo ke { p with maps := ms }) (info : PI) (hc : Counts ke p info)
    (pi : PInfo) (h0 : pi.insns = [] ∧ pi.restricted = false) :
    ∃ pi', withInsns call info pi = .ok pi' ∧ pi' = { pi with insns := pi'.insns, restricted := pi'.restricted } ∧
      pi'.instructions = if ke.capable = true ∧ p.xlated ≠ [] then (if ke.blinded = true ∧ ke.rawOk = false then some none else some (some p.xlated)) else none := by
  unfold withInsns
  by_cases hx : info.xlated.count > 0
  · rw [if_pos hx, hcall]
    obtain ⟨i3, h1, h2⟩ := insns_call ke p ms info hc hx
    simp only [h1]
    have hcap : ke.capable = true := by
      cases h : ke.capable with
      | true => rfl
      | false => rw [hc.xlated, h] at hx; simp at hx
    have hcnt : info.xlated.count = p.xlated.length := by rw [hc.xlated, hcap]; rfl
    have hpos : 0 < p.xlated.length := by omega
    have hne : p.xlated ≠ [] := List.length_pos_iff.mp hpos
    by_cases hb : ke.blinded = true ∧ ke.rawOk = false
    · have hp := h2.hidden hpos (by rw [hb.1, hb.2]; rfl)
      refine ⟨{ pi with restricted := true, insns := [] }, by rw [if_pos hp], rfl, ?_⟩
      rw [if_pos (show ke.capable = true ∧ p.xlated ≠ [] from ⟨hcap, hne⟩), if_pos hb]
      rfl
    · have ha : (!ke.blinded || ke.rawOk) = true := by
        cases h1 : ke.blinded <;> cases h2 : ke.rawOk <;> first | rfl | exact absurd ⟨h1, h2⟩ hb
      have hp := h2.shown hpos ha
      have hbuf := h2.buf ha
      rw [List.take_length] at hbuf
      refine ⟨{ pi with insns := p.xlated }, by rw [if_neg (by rw [hp]; exact fun h => by cases h), hbuf], rfl, ?_⟩
      rw [if_pos (show ke.capable = true ∧ p.xlated ≠ [] from ⟨hcap, hne⟩), if_neg hb]
      show (if pi.restricted then _ else _) = _
      rw [h0.2, if_neg (fun h => by cases h), if_neg (show ¬ p.xlated.length = 0 by omega)]
  · rw [if_neg hx]
    refine ⟨pi, rfl, by simp, ?_⟩
    have : ¬ (ke.capable = true ∧ p.xlated ≠ []) := by
      rintro ⟨h1, h2⟩
      rw [hc.xlated, h1] at hx
      exact hx (List.length_pos_iff.mpr h2)
    rw [if_neg this]
    simp [PInfo.instructions, h0.1, h0.2]

theorem buf_of {real : List Nat} {allowed : Bool} {n : Nat} {f : Fld} (h : Filled real allowed n f) (ha : allowed = true ∨ n = 0) : f.buf = real.take n := by
  rcases ha with ha | ha
  · exact h.buf ha
  · subst ha
    exact List.length_eq_zero_iff.mp h.len

theorem withSecond_spec (ke : KEnv) (p : KProg) (hp : Sane p) (call : Nat → PI → Except Err PI) (ms : List Nat) (hms : p.maps <+: ms) (hcall : call 2 = linuxInfo ke { p with maps := ms })
    (info : PI) (hc : Counts ke p info) (hj : p.jited ≠ [] ∨ ke.rawOk = true) (pi : PInfo)
    (hmaps : pi.maps = if 1 ≤ ke.level then some (List.replicate info.maps.count 0) else none)
    (h0 : pi.lineInfo = [] ∧ pi.numLineInfo = 0 ∧ pi.funcInfo = [] ∧ pi.numFuncInfo = 0 ∧ pi.jited = [] ∧ pi.ksyms = [] ∧ pi.funcLens = [] ∧ pi.jitedLine = []) :
    withSecond call info pi = .ok { pi with
      maps := if 1 ≤ ke.level then some p.maps else none
      lineInfo := if ke.capable = true ∧ 3 ≤ ke.level then p.lineInfo else []
      numLineInfo := info.lineInfo.count
      funcInfo := if ke.capable = true ∧ 3 ≤ ke.level then p.funcInfo else []
      numFuncInfo := info.funcInfo.count
      jited := if ke.rawOk then (if ke.capable then p.jited else []) else []
      ksyms := if ke.rawOk then (if ke.capable = true ∧ 2 ≤ ke.level then p.ksyms else []) else []
      funcLens := if ke.rawOk then (if ke.capable = true ∧ 2 ≤ ke.level then p.funcLens else []) else []
      jitedLine := if ke.rawOk then (if ke.capable = true ∧ 3 ≤ ke.level then p.jitedLine else []) else [] } := by
  have tmaps : ∀ l, p.maps <+: l → l.take info.maps.count = if 1 ≤ ke.level then p.maps else [] := by
    intro l ⟨t, ht⟩
    rw [hc.maps, ← ht]
    split
    · rw [List.take_left]
    · rfl
  have t2 := take_if (ke.capable = true) p.jited
  have t3 := take_if (ke.capable = true ∧ 2 ≤ ke.level) p.ksyms
  have t4 := take_if (ke.capable = true ∧ 2 ≤ ke.level) p.funcLens
  have t5 := take_if (ke.capable = true ∧ 3 ≤ ke.level) p.funcInfo
  have t6 := take_if (ke.capable = true ∧ 3 ≤ ke.level) p.lineInfo
  have t7 := take_if (ke.capable = true ∧ 3 ≤ ke.level) p.jitedLine
  rw [← hc.jited] at t2
  rw [← hc.ksyms] at t3
  rw [← hc.funcLens] at t4
  rw [← hc.funcInfo] at t5
  rw [← hc.lineInfo] at t6
  rw [← hc.jitedLine] at t7
  unfold withSecond
  cases hm : makeSecondCall info with
  | false =>
    unfold makeSecondCall at hm
    have hm := of_decide_eq_false hm
    have z1 : info.maps.count = 0 := by omega
    have z2 : info.jited.count = 0 := by omega
    have z3 : info.ksyms.count = 0 := by omega
    have z4 : info.funcLens.count = 0 := by omega
    have z5 : info.funcInfo.count = 0 := by omega
    have z6 : info.lineInfo.count = 0 := by omega
    have z7 : info.jitedLine.count = 0 := by omega
    simp only [Bool.false_eq_true, if_false]
    have tm := tmaps p.maps (List.prefix_refl _)
    rw [z1] at tm hmaps
    rw [z2] at t2
    rw [z3] at t3
    rw [z4] at t4
    rw [z5] at t5
    rw [z6] at t6
    rw [z7] at t7
    obtain ⟨a1, a2, a3, a4, a5, a6, a7, a8⟩ := h0
    rw [← t2, ← t3, ← t4, ← t5, ← t6, ← t7, z5, z6]
    have hmp : (if 1 ≤ ke.level then some p.maps else none) = pi.maps := by
      rw [hmaps]
      split
      · rename_i h; rw [if_pos h] at tm; rw [← tm]; rfl
      · rfl
    rw [hmp]
    simp only [List.take_zero, ite_self]
    cases pi
    simp only at a1 a2 a3 a4 a5 a6 a7 a8
    simp [a1, a2, a3, a4, a5, a6, a7, a8]
  | true =>
    obtain ⟨i2, h1, g1, g2, g3, g4, g5, g6, g7⟩ := second_call ke p hp ms hms info hc
    simp only [if_true, hcall, h1]
    have b1 : (if info.maps.count > 0 then some i2.maps.buf else pi.maps) = if 1 ≤ ke.level then some p.maps else none := by
      rw [buf_of g1 (.inl rfl), tmaps ms hms, hmaps]
      by_cases hl : 1 ≤ ke.level
      · simp only [if_pos hl]
        split
        · rfl
        · have hz : info.maps.count = 0 := by omega
          have := tmaps p.maps (List.prefix_refl _)
          rw [hz, if_pos hl] at this
          rw [hz, ← this]; rfl
      · simp only [if_neg hl]
        rw [if_neg (by rw [hc.maps, if_neg hl]; omega)]
    rw [b1, buf_of g5 (.inl rfl), t5, buf_of g6 (.inl rfl), t6]
    cases hr : ke.rawOk with
    | true =>
      rw [hr] at g2 g3 g4 g7
      rw [if_neg (fun ⟨x, y⟩ => by rw [g2.shown x rfl] at y; cases y)]
      rw [buf_of g2 (.inl rfl), buf_of g3 (.inl rfl), buf_of g4 (.inl rfl), buf_of g7 (.inl rfl), t2, t3, t4, t7]
      simp
    | false =>
      rw [hr] at g2 g3 g4 g7
      obtain ⟨a1, a2, a3, a4, a5, a6, a7, a8⟩ := h0
      simp only [Bool.false_eq_true, if_false]
      by_cases hcap : ke.capable = true
      · have hpos : 0 < info.jited.count := by
          rw [hc.jited, if_pos hcap]
          rcases hj with hj | hj
          · exact List.length_pos_iff.mpr hj
          · rw [hr] at hj; cases hj
        rw [if_pos ⟨hpos, g2.hidden hpos rfl⟩]
        cases pi
        simp only at a1 a2 a3 a4 a5 a6 a7 a8
        simp [a5, a6, a7, a8]
      · have z2 : info.jited.count = 0 := by rw [hc.jited, if_neg hcap]
        have z3 : info.ksyms.count = 0 := by rw [hc.ksyms, if_neg (fun h => hcap h.1)]
        have z4 : info.funcLens.count = 0 := by rw [hc.funcLens, if_neg (fun h => hcap h.1)]
        have z7 : info.jitedLine.count = 0 := by rw [hc.jitedLine, if_neg (fun h => hcap h.1)]
        rw [if_neg (fun h => by omega), buf_of g2 (.inr z2), buf_of g3 (.inr z3), buf_of g4 (.inr z4), buf_of g7 (.inr z7), z2, z3, z4, z7]
        rfl

theorem avail_of (c : Bool) (l : List Nat) : (if (if c then l else []).length > 0 then some (if c then l else []) else none) = avail c l := by
  unfold avail
  cases c with
  | false => rfl
  | true =>
    cases l with
    | nil => rfl
    | cons a r => rfl

theorem avail_of' (c : Bool) (l : List Nat) : (if (if c then l else []).length = 0 then none else some (if c then l else [])) = avail c l := by
  unfold avail
  cases c with
  | false => rfl
  | true =>
    cases l with
    | nil => rfl
    | cons a r => rfl

/-- **C83**: what is reported about a program is what the kernel has, for every kernel version, privilege and restriction, if the
program has been compiled or addresses may be seen. -/
theorem programInfo_exact_partial (ke : KEnv) (p : KProg) (hp : Sane p) (call : Nat → PI → Except Err PI) (ms : Nat → List Nat)
    (hcall : ∀ i, call i = linuxInfo ke { p with maps := ms i }) (h0 : ms 0 = p.maps) (hms : ∀ i, p.maps <+: ms i)
    (lines : List (Option (String × Tok))) (hf : ProgFile p lines) (hj : p.jited ≠ [] ∨ ke.rawOk = true) (full : Option (List Nat)) :
    ∃ pi, newProgramInfo call (some lines) (decide (1 ≤ ke.level)) full = .ok pi ∧ Exact ke p lines pi ∧
      (pi.name = (if 1 ≤ ke.level then p.name else []) ∨ (p.name.length = 15 ∧ full = some pi.name)) := by
  obtain ⟨info, hi, hfi⟩ := first_call ke p
  have hc := hfi.counts
  have hnm : cstr info.name = if 1 ≤ ke.level then p.name else [] := by
    rw [hfi.name]
    split
    · exact cstr_pad _ _ hp.name.2
    · exact cstr_pad [] 16 (by simp)
  unfold newProgramInfo
  rw [hcall 0, h0]
  have e0 : ({ p with maps := p.maps } : KProg) = p := rfl
  rw [e0, hi]
  simp only
  rw [if_neg (by rw [hfi.typ]; unfold typeOk; simpa using hp.typ.2)]
  have main : ∀ pi0 : PInfo, pi0 = { pinfoOf info with typ := p.typ, memlock := pi0.memlock } → pi0.memlock = (if some ("memlock", Tok.num p.memlock) ∈ lines then p.memlock else 0) →
      ∃ pi, withRest call (decide (1 ≤ ke.level)) full info pi0 = .ok pi ∧ Exact ke p lines pi ∧
      (pi.name = (if 1 ≤ ke.level then p.name else []) ∨ (p.name.length = 15 ∧ full = some pi.name)) := by
    intro pi0 hpi hml
    unfold withRest
    have hwm : withMaps (decide (1 ≤ ke.level)) info pi0 = { pi0 with
        maps := if 1 ≤ ke.level then some (List.replicate info.maps.count 0) else none, uid := if 1 ≤ ke.level then some p.uid else none } := by
      unfold withMaps
      by_cases hl : 1 ≤ ke.level
      · rw [if_pos (.inr (by simpa using hl)), if_pos hl, if_pos hl, hfi.uid, if_pos hl]
      · rw [if_neg (by rw [hc.maps, if_neg hl]; simpa using hl), if_neg hl, if_neg hl, hpi]; rfl
    rw [hwm]
    obtain ⟨pi1, h1, h2, h3⟩ := withInsns_spec ke p call (ms 1) (hcall 1) info hc
      { pi0 with maps := if 1 ≤ ke.level then some (List.replicate info.maps.count 0) else none, uid := if 1 ≤ ke.level then some p.uid else none }
      (by rw [hpi]; exact ⟨rfl, rfl⟩)
    rw [h1]
    simp only
    have h4 := withSecond_spec ke p hp call (ms 2) (hms 2) (hcall 2) info hc hj pi1 (by rw [h2]) (by rw [h2, hpi]; exact ⟨rfl, rfl, rfl, rfl, rfl, rfl, rfl, rfl⟩)
    rw [h4]
    simp only
    obtain ⟨pi2, hpi2⟩ : ∃ x : PInfo, x = { pi1 with
      maps := if 1 ≤ ke.level then some p.maps else none
      lineInfo := if ke.capable = true ∧ 3 ≤ ke.level then p.lineInfo else []
      numLineInfo := info.lineInfo.count
      funcInfo := if ke.capable = true ∧ 3 ≤ ke.level then p.funcInfo else []
      numFuncInfo := info.funcInfo.count
      jited := if ke.rawOk then (if ke.capable then p.jited else []) else []
      ksyms := if ke.rawOk then (if ke.capable = true ∧ 2 ≤ ke.level then p.ksyms else []) else []
      funcLens := if ke.rawOk then (if ke.capable = true ∧ 2 ≤ ke.level then p.funcLens else []) else []
      jitedLine := if ke.rawOk then (if ke.capable = true ∧ 3 ≤ ke.level then p.jitedLine else []) else [] } := ⟨_, rfl⟩
    rw [← hpi2]
    have hname2 : pi2.name = if 1 ≤ ke.level then p.name else [] := by rw [hpi2, h2, hpi]; exact hnm
    have hex : Exact ke p lines pi2 := by
      constructor
      · rw [hpi2, h2, hpi]
      · rw [hpi2, h2, hpi]; exact hfi.id
      · rw [hpi2, h2, hpi]; show hex info.tag = _; rw [hfi.tag]
      · rw [hpi2, h2]
      · rw [hpi2]; rfl
      · rw [hpi2, h2, hpi]; exact hfi.loadTime
      · rw [hpi2, h2, hpi]; exact hfi.btf
      · rw [hpi2, h2, hpi]; exact hfi.verified
      · rw [hpi2, h2, hpi]; exact hc.xlated
      · rw [hpi2, h2, hpi]; exact hc.jited
      · rw [← h3, hpi2]; rfl
      · rw [← avail_of, hpi2]
        cases ke.rawOk <;> cases ke.capable <;> rfl
      · rw [← avail_of', hpi2]
        cases ke.rawOk <;> cases ke.capable <;> by_cases hl : 2 ≤ ke.level <;> simp [PInfo.jitedKsymAddrs, hl]
      · rw [← avail_of, hpi2]
        cases ke.rawOk <;> cases ke.capable <;> by_cases hl : 2 ≤ ke.level <;> simp [PInfo.jitedFuncLens, hl]
      · rw [← avail_of, hpi2]
        cases ke.rawOk <;> cases ke.capable <;> by_cases hl : 3 ≤ ke.level <;> simp [PInfo.jitedLineInfos, hl]
      · rw [hpi2]
      · rw [hpi2]; show info.lineInfo.count = _; rw [hc.lineInfo]; simp only; split <;> rfl
      · rw [hpi2]
      · rw [hpi2]; show info.funcInfo.count = _; rw [hc.funcInfo]; simp only; split <;> rfl
      · rw [hpi2, h2]; exact hml
    unfold withName
    split
    · rename_i hcnd
      cases full with
      | none => exact ⟨pi2, rfl, hex, .inl hname2⟩
      | some n =>
        refine ⟨{ pi2 with name := n }, rfl, ⟨hex.1, hex.2, hex.3, hex.4, hex.5, hex.6, hex.7, hex.8, hex.9, hex.10, hex.11, hex.12, hex.13, hex.14, hex.15, hex.16, hex.17, hex.18, hex.19, hex.20⟩, .inr ⟨?_, rfl⟩⟩
        have := hcnd.1
        rw [hname2] at this
        split at this
        · exact this
        · cases this
    · exact ⟨pi2, rfl, hex, .inl hname2⟩
  have htag : (pinfoOf info).tag ≠ [] := by show hex info.tag ≠ []; rw [hfi.tag]; exact hex_ne hp.tag
  rcases prog_file p hp lines hf (pinfoOf info) htag rfl with ⟨h1, h2⟩ | h1
  · rw [h1]
    simp only
    refine main (pinfoOf info) ?_ ?_
    · show pinfoOf info = _
      unfold pinfoOf; rw [hfi.typ]
    · rw [if_neg (fun h => h2 ⟨_, h⟩)]; rfl
  · rw [h1]
    simp only
    refine main _ ?_ ?_
    · rfl
    · rfl

/-- **C83**: the tag is the bytes in hexadecimal. -/
theorem tag_hex (l : List Nat) (h : ∀ b ∈ l, b < 256) : unhex (hex l) = some l := by
  have hd : ∀ n, n < 16 → digitVal (hexDigit n) = some n := by decide
  induction l with
  | nil => rfl
  | cons b r ih =>
    have hb := h b (List.mem_cons_self ..)
    simp only [hex, unhex]
    rw [hd _ (by omega), hd _ (by omega), ih (fun b hb => h b (List.mem_cons_of_mem _ hb))]
    simp only [Option.bind_some, Option.map_some, Option.some.injEq, List.cons.injEq, and_true]
    omega

/-! ## What is false -/

/-- A program that isn't compiled. -/
def interpreted : KProg :=
  { typ := 1, id := 7, tag := [0xab, 1, 2, 3, 4, 5, 6, 7], name := [102], loadTime := 1, uid := 0, btf := 0, verified := 2, maps := [3], xlated := [0xb7, 0x95],
    jited := [], ksyms := [0xffff8000], funcLens := [16], funcInfo := [], lineInfo := [], jitedLine := [], memlock := 4096 }

theorem interpreted_sane : Sane interpreted := by
  constructor <;> decide

/-- **C83, a bug**: without the JIT and with addresses restricted, an address of zero is reported as if it were known. -/
theorem ksyms_zero_counterexample :
    ∃ pi, newProgramInfo (fun _ => linuxInfo ⟨4, true, false, false⟩ interpreted) (some [some ("prog_type", .num 1)]) true none = .ok pi ∧
      pi.jitedKsymAddrs = some [0] ∧ pi.jitedFuncLens = some [0] ∧ avail (true && false) interpreted.ksyms = none := by
  exact ⟨_, rfl, rfl, rfl, rfl⟩

/-- **C83, a bug**: on kernels without the system call the tag is reported as all zeroes although fdinfo has it. -/
theorem tag_fallback_counterexample :
    ∃ pi, newProgramInfo (fun _ _ => .error .einval) (some [some ("prog_type", .num 1), some ("prog_tag", .word (hex interpreted.tag)), some ("memlock", .num 4096)]) false none = .ok pi ∧
      pi.typ = 1 ∧ pi.memlock = 4096 ∧ pi.tag = hex [0, 0, 0, 0, 0, 0, 0, 0] := by
  exact ⟨_, rfl, rfl, rfl, rfl⟩

/-! ## Not vacuous -/

/-- A compiled program with two functions. -/
def compiled : KProg :=
  { typ := 2, id := 8, tag := [1, 2, 3, 4, 5, 6, 7, 8], name := [102, 111], loadTime := 1, uid := 1000, btf := 5, verified := 30, maps := [3, 4], xlated := [0xb7, 0x95],
    jited := [0x55, 0xc3], ksyms := [0xffff8000, 0xffff9000], funcLens := [16, 8], funcInfo := [1, 2], lineInfo := [10, 20, 30], jitedLine := [0xffff8001], memlock := 4096 }

/-- Its file in fdinfo. -/
def compiledFile : List (Option (String × Tok)) :=
  [some ("pos", .num 0), none, some ("prog_type", .num 2), some ("prog_tag", .word (hex compiled.tag)), some ("memlock", .num 4096)]

theorem compiled_sane : Sane compiled := by
  constructor <;> decide

theorem compiled_file : ProgFile compiled compiledFile := by
  refine ⟨?_, ?_, ?_, ?_⟩
  · intro v h; simp [compiledFile] at h; exact h
  · intro v h; simp [compiledFile] at h; exact h
  · intro v h; simp [compiledFile] at h; exact h
  · intro v _; simp [compiledFile, compiled]

/-- A map that has grown between the calls, a privileged caller. -/
example : ∃ pi, newProgramInfo (fun i => linuxInfo ⟨4, true, true, true⟩ { compiled with maps := if i = 0 then [3, 4] else [3, 4, 9] }) (some compiledFile) true none = .ok pi ∧
    pi.mapIDs = some [3, 4] ∧ pi.jitedKsymAddrs = some [0xffff8000, 0xffff9000] ∧ pi.lineInfo = [10, 20, 30] ∧ pi.instructions = some (some [0xb7, 0x95]) := by
  exact ⟨_, rfl, rfl, rfl, rfl, rfl⟩

/-- Constants are blinded and the caller may not see addresses. -/
example : ∃ pi, newProgramInfo (fun _ => linuxInfo ⟨4, true, false, true⟩ compiled) (some compiledFile) true none = .ok pi ∧
    pi.mapIDs = some [3, 4] ∧ pi.jitedKsymAddrs = none ∧ pi.lineInfo = [10, 20, 30] ∧ pi.instructions = some none := by
  exact ⟨_, rfl, rfl, rfl, rfl, rfl⟩

/-- The theorem applies. -/
example : ∃ pi, newProgramInfo (fun _ => linuxInfo ⟨2, true, false, false⟩ compiled) (some compiledFile) true (some [1]) = .ok pi ∧ Exact ⟨2, true, false, false⟩ compiled compiledFile pi := by
  obtain ⟨pi, h, h2, _⟩ := programInfo_exact_partial ⟨2, true, false, false⟩ compiled compiled_sane _ (fun _ => compiled.maps) (fun _ => rfl) rfl (fun _ => List.prefix_refl _)
    compiledFile compiled_file (.inl (by decide)) (some [1])
  exact ⟨pi, h, h2⟩

/-- A map. -/
def someMap : KMap := ⟨1, 4, 8, 10, 0, [109], 5, 2, 0, 4096, true⟩

theorem someMap_sane : SaneMap someMap := by
  constructor <;> decide

/-- Its file. -/
def someMapFile : List (Option (String × Tok)) :=
  [some ("pos", .num 0), some ("map_type", .num 1), some ("key_size", .num 4), some ("value_size", .num 8), some ("max_entries", .num 10), some ("map_flags", .num 0), some ("memlock", .num 4096), some ("map_id", .num 5), some ("frozen", .num 1)]

theorem someMapFile_ok : MapFile someMap someMapFile := by
  constructor <;> (intro v h; simp [someMapFile] at h; try exact h)

end Ebpf.Info
