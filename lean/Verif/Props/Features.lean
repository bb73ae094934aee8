import Verif.Spec.Features
/-!
# C94: Feature probes tell the truth
-/
namespace Ebpf.Features
open Ebpf.FeaturesSpec

private theorem close_new {n : Nat} {fds : List Nat} (h : n ∉ fds) : close n (n :: fds) = fds := by
  unfold close
  rw [List.filter_cons_of_neg (by simp)]
  rw [List.filter_eq_self]
  intro x hx
  simp only [decide_not, Bool.not_eq_eq_eq_not, Bool.not_true, decide_eq_false_iff_not]
  intro e
  exact h (e ▸ hx)

section
variable {k : Kernel} {s : Sys}

/-- What is set is known. -/
private def Fits (k : Kernel) (a : Attr) : Prop := ∀ f ∈ fields a, k.last < f.1 → f.2 = 0

private theorem createMap_cases (hl : Linux k) (h : On k s) (a : Attr) (fds : List Nat)
    (hf : k.types a.mapType = true → Fits k a ∧ Shape k a ∧ Common k a) :
    (createMap s a fds).2 = fds ∧
    ((createMap s a fds).1 = none ∧ k.types a.mapType = true ∧
        (a.mapType = 12 ∨ a.mapType = 13 → k.opened a.innerMapFd = true) ∧ (a.btfValueTypeId ≠ 0 → k.opened a.btfFd = true) ∧
        (a.mapType = 26 → k.structOps a.btfVmlinuxValueTypeId = true) ∨
      (createMap s a fds).1 = some .notSupported ∧ k.types a.mapType = false ∨
      (createMap s a fds).1 = some (.errno 9) ∧ k.types a.mapType = true ∧
        ((a.mapType = 12 ∨ a.mapType = 13) ∨ a.btfValueTypeId ≠ 0) ∨
      (createMap s a fds).1 = some (.errno 524) ∧ k.types a.mapType = true ∧ a.mapType = 26 ∨
      ∃ e, (createMap s a fds).1 = some (.errno e) ∧ ¬ Telling e ∧ s.create a = .error e) := by
  have hc := h.create a
  unfold createMap
  generalize s.create a = r at hc ⊢
  cases hc with
  | fault e he =>
    refine ⟨?_, Or.inr (Or.inr (Or.inr (Or.inr ⟨e, ?_, he, rfl⟩)))⟩
    all_goals
      have : ¬ (e = EINVAL ∨ e = E2BIG) := fun x => he (by rcases x with x | x <;> simp [Telling, x, EINVAL, E2BIG])
      simp only [if_neg this]
  | tooBig hb =>
    refine ⟨by simp [E2BIG], Or.inr (Or.inl ⟨by simp [E2BIG], ?_⟩)⟩
    cases ht : k.types a.mapType with
    | false => rfl
    | true =>
      obtain ⟨f, hfm, hlt, hne⟩ := hb
      exact absurd ((hf ht).1 f hfm (by have := hl.order; omega)) hne
  | tooNew hb _ =>
    refine ⟨by simp [EINVAL], Or.inr (Or.inl ⟨by simp [EINVAL], ?_⟩)⟩
    cases ht : k.types a.mapType with
    | false => rfl
    | true =>
      obtain ⟨f, hfm, hlt, hne⟩ := hb
      exact absurd ((hf ht).1 f hfm hlt) hne
  | invalid _ hb =>
    refine ⟨by simp [EINVAL], Or.inr (Or.inl ⟨by simp [EINVAL], ?_⟩)⟩
    cases ht : k.types a.mapType with
    | false => rfl
    | true => exact absurd ⟨ht, (hf ht).2⟩ hb
  | badInner hb ht hs hc hi =>
    exact ⟨by simp [EINVAL, E2BIG], Or.inr (Or.inr (Or.inl ⟨by simp [EINVAL, E2BIG], ht, Or.inl hi.1⟩))⟩
  | badBtf hb ht hs hc hi =>
    exact ⟨by simp [EINVAL, E2BIG], Or.inr (Or.inr (Or.inl ⟨by simp [EINVAL, E2BIG], ht, Or.inr hi.1⟩))⟩
  | notStructOps hb ht hs hc hi =>
    exact ⟨by simp [EINVAL, E2BIG], Or.inr (Or.inr (Or.inr (Or.inl ⟨by simp [EINVAL, E2BIG], ht, hi.1⟩)))⟩
  | created hb ht hs hc h1 h2 h3 =>
    exact ⟨close_new (h.pick fds), Or.inl ⟨rfl, ht, h1, h2, h3⟩⟩

/-- A map type that is probed by creating a map. -/
private theorem plain_ok (hl : Linux k) (h : On k s) (a : Attr) (fds : List Nat)
    (hf : k.types a.mapType = true → Fits k a ∧ Shape k a ∧ Common k a)
    (h1 : a.mapType ≠ 12 ∧ a.mapType ≠ 13 ∧ a.mapType ≠ 26) (h2 : a.btfValueTypeId = 0) :
    Truthful (k.types a.mapType = true) fds (createMap s a fds) ∧ (NoFaults s → Conclusive (createMap s a fds)) := by
  obtain ⟨hfd, hc⟩ := createMap_cases hl h a fds hf
  rcases hc with ⟨e, ht, _⟩ | ⟨e, ht⟩ | ⟨e, ht, hx⟩ | ⟨e, ht, hx⟩ | ⟨x, e, hx, hy⟩
  · exact ⟨⟨fun _ => ht, by simp [e], hfd⟩, fun _ => Or.inl e⟩
  · exact ⟨⟨by simp [e], by simp [ht], hfd⟩, fun _ => Or.inr e⟩
  · exact absurd h2 (by rcases hx with (hx | hx) | hx; exact absurd hx h1.1; exact absurd hx h1.2.1; exact hx)
  · exact absurd hx h1.2.2
  · exact ⟨⟨by simp [e], by simp [e], hfd⟩, fun hn => absurd (hn.1 _ _ hy) hx⟩

/-- A map type that is probed by an error. -/
private theorem accept_ok (hl : Linux k) (h : On k s) (a : Attr) (fds : List Nat) (code : Nat)
    (hf : k.types a.mapType = true → Fits k a ∧ Shape k a ∧ Common k a)
    (h1 : code = 9 ∧ a.mapType ≠ 26 ∨ code = 524 ∧ a.mapType = 26 ∧ a.btfValueTypeId = 0) :
    Truthful (k.types a.mapType = true) fds (accept code (createMap s a fds)) ∧ (NoFaults s → Conclusive (accept code (createMap s a fds))) := by
  obtain ⟨hfd, hc⟩ := createMap_cases hl h a fds hf
  rcases hc with ⟨e, ht, _⟩ | ⟨e, ht⟩ | ⟨e, ht, hx⟩ | ⟨e, ht, hx⟩ | ⟨x, e, hx, hy⟩
  · have ea : accept code (createMap s a fds) = createMap s a fds := by simp [accept, e]
    rw [ea]; exact ⟨⟨fun _ => ht, by simp [e], hfd⟩, fun _ => Or.inl e⟩
  · have ea : accept code (createMap s a fds) = createMap s a fds := by simp [accept, e]
    rw [ea]; exact ⟨⟨by simp [e], by simp [ht], hfd⟩, fun _ => Or.inr e⟩
  · rcases h1 with ⟨hcode, _⟩ | ⟨_, hm, hb⟩
    · have ea : accept code (createMap s a fds) = (none, (createMap s a fds).2) := by simp [accept, e, hcode]
      rw [ea]; exact ⟨⟨fun _ => ht, by simp, hfd⟩, fun _ => Or.inl rfl⟩
    · exact absurd hb (by rcases hx with (hx | hx) | hx; omega; omega; exact hx)
  · rcases h1 with ⟨_, hm⟩ | ⟨hcode, hm, hb⟩
    · exact absurd hx hm
    · have ea : accept code (createMap s a fds) = (none, (createMap s a fds).2) := by simp [accept, e, hcode]
      rw [ea]; exact ⟨⟨fun _ => ht, by simp, hfd⟩, fun _ => Or.inl rfl⟩
  · have hne : x ≠ code := by
      intro ex
      refine hx ?_
      rcases h1 with ⟨hcode, _⟩ | ⟨hcode, _⟩ <;> simp [Telling, ex, hcode]
    have ea : accept code (createMap s a fds) = createMap s a fds := by simp [accept, e, hne]
    rw [ea]; exact ⟨⟨by simp [e], by simp [e], hfd⟩, fun hn => absurd (hn.1 _ _ hy) hx⟩

private theorem bit_pow (j i : Nat) (h : Nat.testBit (2 ^ j) i = true) : i = j := by
  rw [Nat.testBit_two_pow] at h
  simpa [eq_comm] using h

private theorem bit_one (i : Nat) (h : Nat.testBit 1 i = true) : i = 0 := bit_pow 0 i h

/-- The map types, one by one. -/
private theorem mapType_ok (hl : Linux k) (h : On k s) (p : Proc) (hp : p.page = k.page) (mt : Nat) (hm : 1 ≤ mt ∧ mt ≤ 33)
    (hk : mt = 19 ∨ mt = 21 → 8 + p.word = k.storageKey) (fds : List Nat) :
    Truthful (k.types mt = true) fds (haveMapType s p mt fds) ∧ (NoFaults s → Conclusive (haveMapType s p mt fds)) := by
  have hlast := hl.last
  have hpage := hl.page
  have hposp : 0 < k.page := by obtain ⟨n, e⟩ := hl.page; rw [e]; exact Nat.two_pow_pos n
  have simple : ∀ t, t = 1 ∨ t = 2 ∨ t = 3 ∨ t = 4 ∨ t = 5 ∨ t = 6 ∨ t = 8 ∨ t = 9 ∨ t = 10 ∨ t = 14 ∨ t = 15 ∨ t = 16 ∨ t = 17 ∨ t = 18 ∨ t = 20 ∨ t = 25 →
      Truthful (k.types t = true) fds (probeMap s { mapType := t } fds) ∧ (NoFaults s → Conclusive (probeMap s { mapType := t } fds)) := by
    intro t ht
    refine plain_ok hl h { mapType := t, keySize := 4, valueSize := 4, maxEntries := 1 } fds (fun _ => ⟨?_, ?_, ?_⟩) ?_ rfl
    · simp [Fits, fields]; omega
    · rcases ht with e | e | e | e | e | e | e | e | e | e | e | e | e | e | e | e <;> subst e <;> simp [Shape]
    · simp [Common]
    · dsimp only; omega
  have storage : ∀ t, t = 24 ∨ t = 28 ∨ t = 29 ∨ t = 32 →
      Truthful (k.types t = true) fds (probeStorageMap s t fds) ∧ (NoFaults s → Conclusive (probeStorageMap s t fds)) := by
    intro t ht
    refine accept_ok hl h { mapType := t, keySize := 4, valueSize := 4, maxEntries := 0, mapFlags := 1, btfKeyTypeId := 1, btfValueTypeId := 1, btfFd := 0xffffffff } fds 9
      (fun hty => ?_) (Or.inl ⟨rfl, by dsimp only; omega⟩)
    have h1 := hl.localStorage t ht hty
    have h2 := hl.noPrealloc t (by omega) hty
    refine ⟨?_, ?_, ?_⟩
    · simp [Fits, fields]; omega
    · rcases ht with e | e | e | e <;> subst e <;> simp [Shape]
    · refine ⟨fun i hi => ?_, by simp, by simp⟩
      rw [bit_one i hi]; exact h2.2
  have nested : ∀ t, t = 12 ∨ t = 13 →
      Truthful (k.types t = true) fds (probeNestedMap s t fds) ∧ (NoFaults s → Conclusive (probeNestedMap s t fds)) := by
    intro t ht
    refine accept_ok hl h { mapType := t, keySize := 4, valueSize := 4, maxEntries := 1, innerMapFd := 0xffffffff } fds 9
      (fun hty => ?_) (Or.inl ⟨rfl, by dsimp only; omega⟩)
    have h1 := hl.nested t ht hty
    refine ⟨?_, ?_, ?_⟩
    · simp [Fits, fields]; omega
    · rcases ht with e | e <;> subst e <;> simp [Shape]
    · simp [Common]
  have cgroup : ∀ t, t = 19 ∨ t = 21 →
      (t = 19 ∨ t = 21 → 8 + p.word = k.storageKey) →
      Truthful (k.types t = true) fds (probeCgroupStorageMap s p.word t fds) ∧ (NoFaults s → Conclusive (probeCgroupStorageMap s p.word t fds)) := by
    intro t ht hk
    refine plain_ok hl h { mapType := t, valueSize := 4, keySize := 8 + p.word, maxEntries := 0 } fds (fun hty => ⟨?_, ?_, ?_⟩) ?_ rfl
    · simp [Fits, fields]; omega
    · have := hk ht
      rcases ht with e | e <;> subst e <;> simp [Shape, this]
    · simp [Common]
    · dsimp only; omega
  have queue : ∀ t, t = 22 ∨ t = 23 ∨ t = 30 →
      Truthful (k.types t = true) fds (createMap s { mapType := t, keySize := 0, valueSize := 4, maxEntries := 1 } fds) ∧
        (NoFaults s → Conclusive (createMap s { mapType := t, keySize := 0, valueSize := 4, maxEntries := 1 } fds)) := by
    intro t ht
    refine plain_ok hl h { mapType := t, keySize := 0, valueSize := 4, maxEntries := 1 } fds (fun hty => ⟨?_, ?_, ?_⟩) ?_ rfl
    · simp [Fits, fields]; omega
    · rcases ht with e | e | e <;> subst e <;> simp [Shape]
    · simp [Common]
    · dsimp only; omega
  have ring : ∀ t, t = 27 ∨ t = 31 →
      Truthful (k.types t = true) fds (createMap s { mapType := t, keySize := 0, valueSize := 0, maxEntries := p.page } fds) ∧
        (NoFaults s → Conclusive (createMap s { mapType := t, keySize := 0, valueSize := 0, maxEntries := p.page } fds)) := by
    intro t ht
    refine plain_ok hl h { mapType := t, keySize := 0, valueSize := 0, maxEntries := p.page } fds (fun hty => ⟨?_, ?_, ?_⟩) ?_ rfl
    · simp [Fits, fields]; omega
    · rcases ht with e | e <;> subst e <;> simp [Shape, hp, hpage]
    · simp [Common]
    · dsimp only; omega
  have hcases : mt = 1 ∨ mt = 2 ∨ mt = 3 ∨ mt = 4 ∨ mt = 5 ∨ mt = 6 ∨ mt = 7 ∨ mt = 8 ∨ mt = 9 ∨ mt = 10 ∨ mt = 11 ∨ mt = 12 ∨ mt = 13 ∨ mt = 14 ∨
      mt = 15 ∨ mt = 16 ∨ mt = 17 ∨ mt = 18 ∨ mt = 19 ∨ mt = 20 ∨ mt = 21 ∨ mt = 22 ∨ mt = 23 ∨ mt = 24 ∨ mt = 25 ∨ mt = 26 ∨ mt = 27 ∨ mt = 28 ∨
      mt = 29 ∨ mt = 30 ∨ mt = 31 ∨ mt = 32 ∨ mt = 33 := by omega
  rcases hcases with e | e | e | e | e | e | e | e | e | e | e | e | e | e | e | e | e | e | e | e | e | e | e | e | e | e | e | e | e | e | e | e | e <;> subst e
  all_goals try exact simple _ (by omega)
  all_goals try exact storage _ (by omega)
  all_goals try exact nested _ (by omega)
  all_goals try exact cgroup _ (by omega) hk
  all_goals try exact queue _ (by omega)
  all_goals try exact ring _ (by omega)
  · -- stack traces
    refine plain_ok hl h { mapType := 7, keySize := 4, valueSize := 8, maxEntries := 1 } fds (fun hty => ⟨?_, ?_, ?_⟩) (by decide) rfl
    · simp [Fits, fields]; omega
    · simp [Shape]
    · simp [Common]
  · -- tries
    refine plain_ok hl h { mapType := 11, keySize := 8, valueSize := 8, mapFlags := 1, maxEntries := 1 } fds (fun hty => ⟨?_, ?_, ?_⟩) (by decide) rfl
    · have := hl.noPrealloc 11 (by omega) hty
      simp [Fits, fields]; omega
    · simp [Shape]
    · refine ⟨fun i hi => ?_, by simp, by simp⟩
      rw [bit_one i hi]; exact (hl.noPrealloc 11 (by omega) hty).2
  · -- struct_ops
    refine accept_ok hl h { mapType := 26, keySize := 4, valueSize := 4, maxEntries := 1, btfVmlinuxValueTypeId := 1 } fds 524
      (fun hty => ⟨?_, ?_, ?_⟩) (Or.inr ⟨rfl, rfl, rfl⟩)
    · have := hl.structOpsMap hty
      simp [Fits, fields]; omega
    · simp [Shape]
    · simp [Common]
  · -- arenas
    refine plain_ok hl h { mapType := 33, keySize := 0, valueSize := 0, maxEntries := 1, mapExtra := 0, mapFlags := 1024 } fds (fun hty => ⟨?_, ?_, ?_⟩) (by decide) rfl
    · have := hl.arena hty
      simp [Fits, fields]; omega
    · simp [Shape]; decide
    · refine ⟨fun i hi => ?_, by simp, by simp⟩
      rw [bit_pow 10 i hi]; exact (hl.arena hty).2

/-- C94, map types: what HaveMapType says is so, on every Linux, whatever fails; and no descriptor stays open. The missing part:
`hk`, without which it isn't true (`storage_missed`). -/
theorem haveMapType_truthful_partial (hl : Linux k) (h : On k s) (p : Proc) (hp : p.page = k.page) (mt : Nat)
    (hk : mt = 19 ∨ mt = 21 → 8 + p.word = k.storageKey) (fds : List Nat) : Truthful (k.types mt = true) fds (haveMapType s p mt fds) := by
  by_cases hm : 1 ≤ mt ∧ mt ≤ 33
  · exact (mapType_ok hl h p hp mt hm hk fds).1
  · have e : mapTypeProbe s p mt = none := by
      unfold mapTypeProbe
      split <;> first | rfl | (exfalso; omega)
    simp [haveMapType, e, Truthful]

/-- C94, map types: for all types in the list, HaveMapType says something unless the kernel is out of memory, forbids it, … -/
theorem haveMapType_conclusive_partial (hl : Linux k) (h : On k s) (hn : NoFaults s) (p : Proc) (hp : p.page = k.page) (mt : Nat) (hm : 1 ≤ mt ∧ mt ≤ 33)
    (hk : mt = 19 ∨ mt = 21 → 8 + p.word = k.storageKey) (fds : List Nat) : Conclusive (haveMapType s p mt fds) :=
  (mapType_ok hl h p hp mt hm hk fds).2 hn

/-- C94, the other side: a process with 32 bits, on a kernel where the key has 16 bytes (ARM, or a kernel with 64 bits): the type is
there, and HaveMapType says it isn't. -/
theorem storage_missed (h : On k s) (hn : NoFaults s) (mt : Nat) (hm : mt = 19 ∨ mt = 21) (hk : k.storageKey = 16)
    (p : Proc) (hw : p.word = 4) (fds : List Nat) : (haveMapType s p mt fds).1 = some .notSupported := by
  have hc := h.create { mapType := mt, valueSize := 4, keySize := 12, maxEntries := 0 }
  have hs : ¬ Shape k { mapType := mt, valueSize := 4, keySize := 12, maxEntries := 0 } := by
    rcases hm with e | e <;> subst e <;> simp [Shape, hk]
  have e : haveMapType s p mt fds = createMap s { mapType := mt, valueSize := 4, keySize := 12, maxEntries := 0 } fds := by
    rcases hm with e | e <;> subst e <;> simp [haveMapType, mapTypeProbe, probeCgroupStorageMap, hw]
  rw [e]
  unfold createMap
  have hf := hn.1 { mapType := mt, valueSize := 4, keySize := 12, maxEntries := 0 }
  generalize s.create { mapType := mt, valueSize := 4, keySize := 12, maxEntries := 0 } = r at hc hf ⊢
  cases hc with
  | fault e he => exact absurd (hf e rfl) he
  | tooBig _ => simp [E2BIG]
  | tooNew _ _ => simp [EINVAL]
  | invalid _ _ => simp [EINVAL]
  | badInner _ _ hs' => exact absurd hs' hs
  | badBtf _ _ hs' => exact absurd hs' hs
  | notStructOps _ _ hs' => exact absurd hs' hs
  | created _ _ hs' => exact absurd hs' hs

private theorem flag_ok (hl : Linux k) (h : On k s) (t i : Nat) (ht : t = 1 ∧ i = 0 ∨ t = 2 ∧ (i = 7 ∨ i = 8 ∨ i = 10 ∨ i = 12)) (fds : List Nat) :
    let o : Out := match s.create { mapType := t, keySize := 4, valueSize := 4, maxEntries := 1, mapFlags := 2 ^ i } with
      | .ok _ => (none, close (s.pick fds) (s.pick fds :: fds))
      | .error e => if e = EINVAL then (some .notSupported, fds) else (some (.errno e), fds)
    Truthful (HasFlag k i) fds o ∧ (NoFaults s → Conclusive o) := by
  have hlast := hl.last
  have hu := hl.union
  have htt : k.types t = true := by rcases ht with ⟨e, _⟩ | ⟨e, _⟩ <;> subst e; exact hl.always.1; exact hl.always.2
  have hpos := Nat.two_pow_pos i
  have hhas : HasFlag k i → 20 ≤ k.last ∧ (k.flags t).testBit i = true := by
    rintro ⟨h1, t', h2, h3⟩
    refine ⟨h1, ?_⟩
    rcases ht with ⟨e, ei⟩ | ⟨e, ei⟩
    · subst e; subst ei; exact hl.firstHash t' h2 h3
    · subst e; exact hl.first t' i h2 h3 ei
  have hshape : Shape k { mapType := t, keySize := 4, valueSize := 4, maxEntries := 1, mapFlags := 2 ^ i } := by
    rcases ht with ⟨e, _⟩ | ⟨e, _⟩ <;> subst e <;> simp [Shape]
  have hc := h.create { mapType := t, keySize := 4, valueSize := 4, maxEntries := 1, mapFlags := 2 ^ i }
  have hf : NoFaults s → ∀ e, s.create { mapType := t, keySize := 4, valueSize := 4, maxEntries := 1, mapFlags := 2 ^ i } = .error e → Telling e :=
    fun hn => hn.1 _
  generalize s.create { mapType := t, keySize := 4, valueSize := 4, maxEntries := 1, mapFlags := 2 ^ i } = r at hc hf ⊢
  intro o
  have bad : (¬ HasFlag k i) → o = (some .notSupported, fds) → Truthful (HasFlag k i) fds o ∧ (NoFaults s → Conclusive o) := by
    intro hb e
    rw [e]
    exact ⟨⟨by simp, fun _ => hb, rfl⟩, fun _ => Or.inr rfl⟩
  have not_ : ∀ (t1 t2 : Nat), t = t1 → t1 ≠ t2 → ¬ t = t2 := fun t1 t2 a b c => b (a ▸ c)
  cases hc with
  | fault e he =>
    have hne : ¬ e = EINVAL := fun x => he (Or.inl x)
    have eo : o = (some (.errno e), fds) := by simp only [o, if_neg hne]
    rw [eo]
    exact ⟨⟨by simp, by simp, rfl⟩, fun hn => absurd (hf hn e rfl) he⟩
  | tooBig hb =>
    exfalso
    obtain ⟨f, hfm, hlt, hne⟩ := hb
    simp [fields] at hfm
    rcases hfm with e | e | e | e | e | e | e | e | e | e | e <;> subst e <;> simp_all <;> omega
  | tooNew hb _ =>
    refine bad (fun hh => ?_) (by simp [o, EINVAL])
    have := (hhas hh).1
    obtain ⟨f, hfm, hlt, hne⟩ := hb
    simp [fields] at hfm
    rcases hfm with e | e | e | e | e | e | e | e | e | e | e <;> subst e <;> simp_all <;> omega
  | invalid _ hb =>
    refine bad (fun hh => hb ⟨htt, hshape, fun j hj => ?_, by simp, by simp⟩) (by simp [o, EINVAL])
    rw [bit_pow i j hj]
    exact (hhas hh).2
  | badInner _ _ _ _ hx => exfalso; dsimp only at hx; omega
  | badBtf _ _ _ _ hx => exact absurd rfl hx.1
  | notStructOps _ _ _ _ hx => exfalso; dsimp only at hx; omega
  | created hb _ _ hcm _ _ _ =>
    have eo : o = (none, fds) := by simp only [o, close_new (h.pick fds)]
    rw [eo]
    refine ⟨⟨fun _ => ⟨?_, t, htt, hcm.1 i (by simp [Nat.testBit_two_pow_self])⟩, by simp, rfl⟩, fun _ => Or.inl rfl⟩
    have := hb (20, 2 ^ i) (by simp [fields])
    by_cases hlt : k.last < 20
    · have := this hlt; simp at this
    · omega

/-- The flags HaveMapFlag may be asked about: BPF_F_NO_PREALLOC, RDONLY_PROG, WRONLY_PROG, MMAPABLE, INNER_MAP. -/
private theorem haveMapFlag_ok (hl : Linux k) (h : On k s) (i : Nat) (hi : i = 0 ∨ i = 7 ∨ i = 8 ∨ i = 10 ∨ i = 12) (fds : List Nat) :
    Truthful (HasFlag k i) fds (haveMapFlag s (2 ^ i) fds) ∧ (NoFaults s → Conclusive (haveMapFlag s (2 ^ i) fds)) := by
  rcases hi with e | e | e | e | e <;> subst e
  · exact flag_ok hl h 1 0 (by omega) fds
  · exact flag_ok hl h 2 7 (by omega) fds
  · exact flag_ok hl h 2 8 (by omega) fds
  · exact flag_ok hl h 2 10 (by omega) fds
  · exact flag_ok hl h 2 12 (by omega) fds

/-- C94, flags of maps: for each flag of the package, HaveMapFlag tells whether some map type takes it, and always something. -/
theorem haveMapFlag_truthful (hl : Linux k) (h : On k s) (i : Nat) (hi : i = 0 ∨ i = 7 ∨ i = 8 ∨ i = 10 ∨ i = 12) (fds : List Nat) :
    Truthful (HasFlag k i) fds (haveMapFlag s (2 ^ i) fds) ∧ (NoFaults s → Conclusive (haveMapFlag s (2 ^ i) fds)) :=
  haveMapFlag_ok hl h i hi fds

/-- A program type that is probed by loading a program. -/
private theorem probeProgram_cases (h : On k s) (r : ProgReq) (fds : List Nat) (hh : r.helper = none)
    (hf : k.progTypes r.progType = true → (r.attachType ≠ 0 → k.knowsAttach = true) ∧ ProgShape r) :
    (probeProgram s r fds).2 = fds ∧
    ((probeProgram s r fds).1 = none ∧ k.progTypes r.progType = true ∨
      (probeProgram s r fds).1 = some .notSupported ∧ k.progTypes r.progType = false ∨
      (probeProgram s r fds).1 = some (.errno 524) ∧ k.progTypes r.progType = true ∧ r.progType = 27 ∨
      ∃ e, (probeProgram s r fds).1 = some (.errno e) ∧ ¬ Telling e ∧ (s.load r = .other e ∨ ∃ log, s.load r = .verifier e log)) := by
  have hc := h.load r
  unfold probeProgram
  generalize s.load r = x at hc ⊢
  have hno : ∀ e, ¬ Telling e → ¬ (e = EINVAL ∨ e = E2BIG) :=
    fun e he x => he (by rcases x with x | x <;> simp [Telling, x, EINVAL, E2BIG])
  cases hc with
  | fault e he =>
    have := hno e he
    exact ⟨by simp only [if_neg this], Or.inr (Or.inr (Or.inr ⟨e, by simp only [if_neg this], he, Or.inl rfl⟩))⟩
  | faultLog e log he =>
    have := hno e he
    exact ⟨by simp only [if_neg this], Or.inr (Or.inr (Or.inr ⟨e, by simp only [if_neg this], he, Or.inr ⟨log, rfl⟩⟩))⟩
  | tooNew e hx he =>
    have : e = EINVAL ∨ e = E2BIG := by rcases he with he | he <;> simp [he, EINVAL, E2BIG]
    refine ⟨by simp only [if_pos this], Or.inr (Or.inl ⟨by simp only [if_pos this], ?_⟩)⟩
    cases ht : k.progTypes r.progType with
    | false => rfl
    | true => exact absurd ((hf ht).1 hx.1) (by simp [hx.2])
  | invalid hk hx =>
    refine ⟨by simp [EINVAL], Or.inr (Or.inl ⟨by simp [EINVAL], ?_⟩)⟩
    cases ht : k.progTypes r.progType with
    | false => rfl
    | true => exact absurd ⟨ht, (hf ht).2⟩ hx
  | noStructOps hk ht hs hx =>
    exact ⟨by simp [EINVAL, E2BIG], Or.inr (Or.inr (Or.inl ⟨by simp [EINVAL, E2BIG], ht, hx⟩))⟩
  | loaded hk ht hs hn hx => exact ⟨close_new (h.pick fds), Or.inl ⟨rfl, ht⟩⟩
  | refused hk ht hs hn n hx => exact absurd hx (by simp [hh])
  | poison hk ht hs hn n hx => exact absurd hx (by simp [hh])
  | badArgs hk ht hs hn n hx => exact absurd hx (by simp [hh])

private theorem prog_ok (h : On k s) (r : ProgReq) (fds : List Nat) (hh : r.helper = none) (h27 : r.progType ≠ 27)
    (hf : k.progTypes r.progType = true → (r.attachType ≠ 0 → k.knowsAttach = true) ∧ ProgShape r) :
    Truthful (k.progTypes r.progType = true) fds (probeProgram s r fds) ∧ (NoFaults s → Conclusive (probeProgram s r fds)) := by
  obtain ⟨hfd, hc⟩ := probeProgram_cases h r fds hh hf
  rcases hc with ⟨e, ht⟩ | ⟨e, ht⟩ | ⟨e, ht, hx⟩ | ⟨x, e, hx, hy⟩
  · exact ⟨⟨fun _ => ht, by simp [e], hfd⟩, fun _ => Or.inl e⟩
  · exact ⟨⟨by simp [e], by simp [ht], hfd⟩, fun _ => Or.inr e⟩
  · exact absurd hx h27
  · refine ⟨⟨by simp [e], by simp [e], hfd⟩, fun hn => absurd ?_ hx⟩
    rcases hy with hy | ⟨log, hy⟩
    · exact hn.2.1 _ _ hy
    · exact hn.2.2.1 _ _ _ hy

/-- C94, program types: what HaveProgramType says is so, and it always says something; but for the types whose probe isn't modelled
(Tracing, Extension, LSM). -/
theorem haveProgramType_truthful_partial (hl : Linux k) (h : On k s) (pt : Nat) (hm : pt ≠ 26 ∧ pt ≠ 28 ∧ pt ≠ 29) (fds : List Nat) :
    Truthful (k.progTypes pt = true) fds (haveProgramType s pt fds) ∧
      (1 ≤ pt → pt ≤ 32 → NoFaults s → Conclusive (haveProgramType s pt fds)) := by
  have simple : ∀ t, 1 ≤ t → t ≤ 32 → t ≠ 18 → t ≠ 25 → t ≠ 27 → t ≠ 30 → t ≠ 31 → t ≠ 32 →
      Truthful (k.progTypes t = true) fds (probeProgram s { progType := t } fds) ∧ (NoFaults s → Conclusive (probeProgram s { progType := t } fds)) := by
    intro t _ _ h1 h2 h3 h4 h5 h6
    refine prog_ok h { progType := t } fds rfl h3 (fun _ => ⟨by simp, ?_⟩)
    unfold ProgShape
    split <;> first | trivial | exact ⟨rfl, rfl⟩ | (dsimp only at *; omega)
  have special : ∀ t a b, (t = 18 ∧ a = 10 ∧ b = false ∨ t = 25 ∧ a = 21 ∧ b = false ∨ t = 30 ∧ a = 36 ∧ b = false ∨ t = 31 ∧ a = 0 ∧ b = true ∨ t = 32 ∧ a = 45 ∧ b = false) →
      Truthful (k.progTypes t = true) fds (probeProgram s { progType := t, attachType := a, sleepable := b } fds) ∧
        (NoFaults s → Conclusive (probeProgram s { progType := t, attachType := a, sleepable := b } fds)) := by
    intro t a b ht
    refine prog_ok h { progType := t, attachType := a, sleepable := b } fds rfl (by dsimp only; omega) (fun hty => ⟨fun ha => ?_, ?_⟩)
    · refine hl.attach t ?_ hty
      dsimp only at ha; omega
    · rcases ht with ⟨e1, e2, e3⟩ | ⟨e1, e2, e3⟩ | ⟨e1, e2, e3⟩ | ⟨e1, e2, e3⟩ | ⟨e1, e2, e3⟩ <;> subst e1 <;> subst e2 <;> subst e3 <;> simp [ProgShape]
  by_cases hr : 1 ≤ pt ∧ pt ≤ 32
  · suffices hx : Truthful (k.progTypes pt = true) fds (haveProgramType s pt fds) ∧ (NoFaults s → Conclusive (haveProgramType s pt fds)) from
      ⟨hx.1, fun _ _ => hx.2⟩
    have hcases : pt = 1 ∨ pt = 2 ∨ pt = 3 ∨ pt = 4 ∨ pt = 5 ∨ pt = 6 ∨ pt = 7 ∨ pt = 8 ∨ pt = 9 ∨ pt = 10 ∨ pt = 11 ∨ pt = 12 ∨ pt = 13 ∨ pt = 14 ∨
      pt = 15 ∨ pt = 16 ∨ pt = 17 ∨ pt = 18 ∨ pt = 19 ∨ pt = 20 ∨ pt = 21 ∨ pt = 22 ∨ pt = 23 ∨ pt = 24 ∨ pt = 25 ∨ pt = 27 ∨
      pt = 30 ∨ pt = 31 ∨ pt = 32 := by omega
    rcases hcases with e | e | e | e | e | e | e | e | e | e | e | e | e | e | e | e | e | e | e | e | e | e | e | e | e | e | e | e | e <;> subst e
    all_goals try exact simple _ (by omega) (by omega) (by omega) (by omega) (by omega) (by omega) (by omega) (by omega)
    · exact special 18 10 false (by simp)
    · exact special 25 21 false (by simp)
    · -- struct_ops
      obtain ⟨hfd, hc⟩ := probeProgram_cases h { progType := 27, gpl := true } fds rfl (fun _ => ⟨by simp, rfl⟩)
      have eh : haveProgramType s 27 fds = accept 524 (probeProgram s { progType := 27, gpl := true } fds) := rfl
      rw [eh]
      rcases hc with ⟨e, ht⟩ | ⟨e, ht⟩ | ⟨e, ht, _⟩ | ⟨x, e, hx, hy⟩
      · have ea : accept 524 (probeProgram s { progType := 27, gpl := true } fds) = probeProgram s { progType := 27, gpl := true } fds := by simp [accept, e]
        rw [ea]; exact ⟨⟨fun _ => ht, by simp [e], hfd⟩, fun _ => Or.inl e⟩
      · have ea : accept 524 (probeProgram s { progType := 27, gpl := true } fds) = probeProgram s { progType := 27, gpl := true } fds := by simp [accept, e]
        rw [ea]; exact ⟨⟨by simp [e], fun _ => by simpa using ht, hfd⟩, fun _ => Or.inr e⟩
      · have ea : accept 524 (probeProgram s { progType := 27, gpl := true } fds) = (none, (probeProgram s { progType := 27, gpl := true } fds).2) := by simp [accept, e]
        rw [ea]; exact ⟨⟨fun _ => ht, by simp, hfd⟩, fun _ => Or.inl rfl⟩
      · have hne : x ≠ 524 := fun ex => hx (by simp [Telling, ex])
        have ea : accept 524 (probeProgram s { progType := 27, gpl := true } fds) = probeProgram s { progType := 27, gpl := true } fds := by simp [accept, e, hne]
        rw [ea]
        refine ⟨⟨by simp [e], by simp [e], hfd⟩, fun hn => absurd ?_ hx⟩
        rcases hy with hy | ⟨log, hy⟩
        · exact hn.2.1 _ _ hy
        · exact hn.2.2.1 _ _ _ hy
    · exact special 30 36 false (by simp)
    · exact special 31 0 true (by simp)
    · exact special 32 45 false (by simp)
  · have e : progTypeProbe s pt = none := by
      unfold progTypeProbe
      split <;> first | rfl | (exfalso; omega)
    refine ⟨by simp [haveProgramType, e, Truthful], fun h1 h2 => absurd ⟨h1, h2⟩ hr⟩

private theorem hasSub_iff (n l : List Char) : hasSub n l = true ↔ Mentions l n := by
  induction l with
  | nil =>
    simp only [hasSub, List.isEmpty_iff, Mentions]
    constructor
    · intro e; exact ⟨[], [], by simp [e]⟩
    · rintro ⟨a, b, e⟩
      have hlen := congrArg List.length e
      simp only [List.length_nil, List.length_append] at hlen
      exact List.length_eq_zero_iff.mp (by omega)
  | cons c cs ih =>
    simp only [hasSub, Bool.or_eq_true, List.isPrefixOf_iff_prefix]
    constructor
    · rintro (⟨t, e⟩ | hx)
      · exact ⟨[], t, by simpa using e.symm⟩
      · obtain ⟨a, b, e⟩ := ih.mp hx
        exact ⟨c :: a, b, by simp [e]⟩
    · rintro ⟨a, b, e⟩
      cases a with
      | nil => exact Or.inl ⟨b, by simpa using e.symm⟩
      | cons x a =>
        simp only [List.cons_append, List.cons.injEq] at e
        exact Or.inr (ih.mpr ⟨a, b, e.2⟩)

private theorem contains_iff (log : List (List Char)) (ns : List (List Char)) :
    logContainsAll log ns = true ↔ ∃ line, Recent log line ∧ ∀ n ∈ ns, Mentions line n := by
  simp only [logContainsAll, List.any_eq_true, List.all_eq_true, hasSub_iff]
  constructor
  · rintro ⟨line, hm, hx⟩
    refine ⟨line, ?_, hx⟩
    obtain ⟨a, b, e⟩ := List.append_of_mem hm
    refine ⟨log.take (log.length - 5) ++ a, b, ?_, ?_⟩
    · rw [List.append_assoc, ← e, List.take_append_drop]
    · have := congrArg List.length e
      simp at this
      omega
  · rintro ⟨line, ⟨a, b, e, hb⟩, hx⟩
    refine ⟨line, ?_, hx⟩
    subst e
    rw [List.drop_append]
    refine List.mem_append_right _ ?_
    have : (a ++ line :: b).length - 5 - a.length = 0 := by simp; omega
    rw [this]
    simp

private theorem helperProg_shape (hl : Linux k) (pt n : Nat) (hm : pt ≠ 26 ∧ pt ≠ 27 ∧ pt ≠ 28 ∧ pt ≠ 29) (ht : k.progTypes pt = true) :
    (helperProg pt n).progType = pt ∧ (helperProg pt n).helper = some n ∧ ((helperProg pt n).attachType ≠ 0 → k.knowsAttach = true) ∧
      ProgShape (helperProg pt n) := by
  unfold helperProg
  split
  · exact ⟨rfl, rfl, fun _ => hl.attach _ (by omega) ht, by simp [ProgShape]⟩
  · exact ⟨rfl, rfl, fun _ => hl.attach _ (by omega) ht, by simp [ProgShape]⟩
  · exact ⟨rfl, rfl, fun _ => hl.attach _ (by omega) ht, by simp [ProgShape]⟩
  · exact ⟨rfl, rfl, by simp, by simp [ProgShape]⟩
  · exact ⟨rfl, rfl, fun _ => hl.attach _ (by omega) ht, by simp [ProgShape]⟩
  · refine ⟨rfl, rfl, by simp, ?_⟩
    unfold ProgShape
    split <;> first | trivial | exact ⟨rfl, rfl⟩ | (dsimp only at *; omega)

private theorem judge_quiet (n : Nat) (log : List (List Char))
    (hl : ∀ line ∈ log, ¬ Mentions line "invalid func".toList ∧ ¬ Mentions line "program of this type cannot use helper".toList ∧
        ¬ Mentions line "unknown func".toList) : judgeHelper n 22 log = some (.errno 22) := by
  have hm : ∀ {line}, Recent log line → line ∈ log := by rintro line ⟨a, b, e, _⟩; simp [e]
  have h1 : logContainsAll log ["invalid func".toList, '#' :: (toString n).toList] = false := by
    rw [Bool.eq_false_iff]; intro hx
    obtain ⟨line, hr, hx⟩ := (contains_iff _ _).mp hx
    exact (hl line (hm hr)).1 (hx _ (by simp))
  have h2 : logContainsAll log ["program of this type cannot use helper".toList, '#' :: (toString n).toList] = false := by
    rw [Bool.eq_false_iff]; intro hx
    obtain ⟨line, hr, hx⟩ := (contains_iff _ _).mp hx
    exact (hl line (hm hr)).2.1 (hx _ (by simp))
  have h3 : logContainsAll log ["unknown func".toList] = false := by
    rw [Bool.eq_false_iff]; intro hx
    obtain ⟨line, hr, hx⟩ := (contains_iff _ _).mp hx
    exact (hl line (hm hr)).2.2 (hx _ (by simp))
  simp only [judgeHelper, EACCES, EINVAL, h1, h2, h3]
  simp

private theorem judge_refused (n : Nat) (hn : n < 2 ^ 31) (u : Bool) (log : List (List Char))
    (hl : ∃ line, Recent log line ∧ Refusal n u line) : judgeHelper n 22 log = some .notSupported := by
  obtain ⟨line, hr, hx⟩ := hl
  have hsn : shown n = (toString n).toList := if_pos hn
  have key : logContainsAll log ["invalid func".toList, '#' :: (toString n).toList] = true ∨
      logContainsAll log ["program of this type cannot use helper".toList, '#' :: (toString n).toList] = true ∨
      logContainsAll log ["unknown func".toList] = true := by
    simp only [contains_iff]
    unfold Refusal at hx
    rw [hsn] at hx
    have tag : ∀ (pre name : List Char), ∀ m ∈ [pre, '#' :: (toString n).toList],
        Mentions (pre ++ ' ' :: name ++ '#' :: (toString n).toList) m := by
      intro pre name m hm
      simp only [List.mem_cons, List.not_mem_nil, or_false] at hm
      rcases hm with e | e <;> subst e
      · exact ⟨[], ' ' :: name ++ '#' :: (toString n).toList, by simp⟩
      · exact ⟨pre ++ ' ' :: name, [], by simp⟩
    have e1 : "invalid func ".toList = "invalid func".toList ++ [' '] := by decide
    have e2 : "program of this type cannot use helper ".toList = "program of this type cannot use helper".toList ++ [' '] := by decide
    have e3 : "unknown func ".toList = "unknown func".toList ++ [' '] := by decide
    rw [e1, e2, e3] at hx
    have sp : ∀ (pre name rest : List Char), (pre ++ [' ']) ++ name ++ rest = pre ++ ' ' :: name ++ rest := by simp
    split at hx
    · obtain ⟨name, e⟩ := hx
      refine Or.inl ⟨line, hr, ?_⟩
      rw [e, sp]
      exact tag _ name
    · rcases hx with ⟨name, e⟩ | ⟨what, e⟩
      · refine Or.inr (Or.inl ⟨line, hr, ?_⟩)
        rw [e, sp]
        exact tag _ name
      · refine Or.inr (Or.inr ⟨line, hr, ?_⟩)
        intro m hm
        simp only [List.mem_cons, List.not_mem_nil, or_false] at hm
        subst hm
        exact ⟨[], ' ' :: what, by rw [e]; simp only [List.nil_append, List.append_assoc, List.cons_append]⟩
  unfold judgeHelper EACCES EINVAL
  dsimp only
  rw [if_neg (by decide), if_pos rfl]
  rcases key with e | e | e
  · rw [if_pos e]
  · split
    · rfl
    · rw [if_pos (by simp only [e, Bool.true_or])]
  · split
    · rfl
    · rw [if_pos (by simp only [e, Bool.or_true])]

private theorem judge_not_here (n : Nat) (log : List (List Char)) : judgeHelper n 22 log = some .notSupported ∨ judgeHelper n 22 log = some (.errno 22) := by
  unfold judgeHelper EACCES EINVAL
  dsimp only
  rw [if_neg (by decide), if_pos rfl]
  split
  · exact Or.inl rfl
  · split
    · exact Or.inl rfl
    · exact Or.inr rfl

/-- C94, helpers: what HaveProgramHelper says is so, whatever fails. A helper that isn't there is reported to be missing (other than
two odd numbers and those of which the kernel prints the negative); one that is there is found if the kernel accepts the call, or
refuses its arguments with EACCES. -/
theorem haveProgramHelper_truthful (hl : Linux k) (h : On k s) (pt n : Nat) (fds : List Nat) :
    Truthful (HelperThere k pt n) fds (haveProgramHelper s pt n fds) ∧
    (NoFaults s → 1 ≤ pt → pt ≤ 32 → pt ≠ 26 → pt ≠ 27 → pt ≠ 28 → pt ≠ 29 →
      (¬ HelperThere k pt n → n < 2 ^ 31 → n ≠ 195896080 → n ≠ 2002000000 → (haveProgramHelper s pt n fds).1 = some .notSupported) ∧
      (HelperThere k pt n → (∀ r log, r.progType = pt → r.helper = some n → ProgShape r → s.load r ≠ .verifier 22 log) → (haveProgramHelper s pt n fds).1 = none)) := by
  unfold haveProgramHelper
  by_cases hm : pt ≠ 26 ∧ pt ≠ 27 ∧ pt ≠ 28 ∧ pt ≠ 29
  · have hni : helperProbeNotImplemented pt = false := by
      simp only [helperProbeNotImplemented, Bool.or_eq_false_iff, beq_eq_false_iff_ne]
      omega
    simp only [hni, Bool.false_eq_true, if_false]
    obtain ⟨⟨ht1, ht2, ht3⟩, htc⟩ := haveProgramType_truthful_partial hl h pt ⟨hm.1, hm.2.2.1, hm.2.2.2⟩ fds
    generalize haveProgramType s pt fds = t at *
    obtain ⟨t1, t2⟩ := t
    dsimp only at *
    subst ht3
    cases t1 with
    | some e =>
      dsimp only
      refine ⟨⟨by simp, fun he => ?_, rfl⟩, fun hn h1 h32 _ _ _ _ => ?_⟩
      · exact fun hx => ht2 he hx.1
      · have := htc h1 h32 hn
        rcases this with e' | e'
        · simp at e'
        · exact ⟨fun _ _ _ _ => e', fun hx _ => absurd hx.1 (ht2 e')⟩
    | none =>
      dsimp only
      have hty := ht1 rfl
      obtain ⟨g1, g2, g3, g4⟩ := helperProg_shape hl pt n hm hty
      have hc := h.load (helperProg pt n)
      have hnf1 : NoFaults s → ∀ e, s.load (helperProg pt n) = .other e → Telling e := fun hn => hn.2.1 _
      have hnf2 : NoFaults s → ∀ e log, s.load (helperProg pt n) = .verifier e log → Telling e := fun hn => hn.2.2.1 _
      have hre : (∀ r log, r.progType = pt → r.helper = some n → ProgShape r → s.load r ≠ .verifier 22 log) →
          ∀ log, s.load (helperProg pt n) ≠ .verifier 22 log := fun hx log => hx _ log g1 g2 g4
      generalize s.load (helperProg pt n) = x at hc hnf1 hnf2 hre ⊢
      cases hc with
      | fault e he =>
        exact ⟨⟨by simp, by simp, rfl⟩, fun hn => absurd (hnf1 hn e rfl) he⟩
      | faultLog e log he =>
        have e1 : judgeHelper n e log = some (.errno e) := by
          have : ¬ e = EACCES := fun x => he (by simp [Telling, x, EACCES])
          have : ¬ e = EINVAL := fun x => he (by simp [Telling, x, EINVAL])
          simp [judgeHelper, *]
        exact ⟨⟨by simp [e1], by simp [e1], rfl⟩, fun hn => absurd (hnf2 hn e log rfl) he⟩
      | tooNew e hx he => exact absurd (g3 hx.1) (by simp [hx.2])
      | invalid hk hx => exact absurd ⟨by rw [g1]; exact hty, g4⟩ hx
      | noStructOps hk ht hs hx => rw [g1] at hx; exact absurd hx hm.2.1
      | loaded hk ht hs hn hx =>
        have := hx n g2
        rw [g1] at this
        exact ⟨⟨fun _ => ⟨hty, this⟩, by simp, close_new (h.pick _)⟩, fun _ _ _ _ _ _ _ => ⟨fun hc => absurd ⟨hty, this⟩ hc, fun _ _ => rfl⟩⟩
      | refused hk ht hs hn n' hx h2 log hlg =>
        rw [g2] at hx
        cases hx
        rw [g1] at h2
        have hno : ¬ HelperThere k pt n := fun hc => h2 hc.2
        refine ⟨⟨fun he => ?_, fun _ => hno, rfl⟩, fun _ _ _ _ _ _ _ => ⟨fun _ hlt _ _ => judge_refused n hlt _ log hlg, fun hc => absurd hc hno⟩⟩
        dsimp only at he
        rcases judge_not_here n log with e | e <;> rw [e] at he <;> simp at he
      | poison hk ht hs hn n' hx h2 log hp =>
        rw [g2] at hx
        cases hx
        rw [g1] at h2
        have hno : ¬ HelperThere k pt n := fun hc => h2 hc.2
        exact ⟨⟨by simp, by simp, rfl⟩, fun _ _ _ _ _ _ _ => ⟨fun _ _ ha hb => absurd hp (by omega), fun hc => absurd hc hno⟩⟩
      | badArgs hk ht hs hn n' hx h2 e he log hlg =>
        rw [g2] at hx
        cases hx
        rw [g1] at h2
        have hyes : HelperThere k pt n := ⟨hty, h2⟩
        rcases he with e' | e' <;> subst e'
        · exact ⟨⟨fun _ => hyes, by simp [judgeHelper, EACCES], rfl⟩, fun _ _ _ _ _ _ _ => ⟨fun hc => absurd hyes hc, fun _ _ => by simp [judgeHelper, EACCES]⟩⟩
        · have eq := judge_quiet n log hlg
          exact ⟨⟨by simp [eq], by simp [eq], rfl⟩, fun _ _ _ _ _ _ _ => ⟨fun hc => absurd hyes hc, fun _ hre' => absurd rfl (hre hre' log)⟩⟩
  · have hni : helperProbeNotImplemented pt = true := by
      simp only [helperProbeNotImplemented, Bool.or_eq_true, beq_iff_eq]
      omega
    simp only [hni, if_true]
    refine ⟨⟨by simp, by simp, by simp⟩, fun _ _ _ h1 h2 h3 h4 => absurd ⟨h1, h2, h3, h4⟩ hm⟩

/-- Loading the program for a link. -/
private theorem withProgram_ok (h : On k s) (a : Nat) (ha : a ≠ 0) (fds : List Nat) (f : Nat → List Nat → Out) (has : Prop)
    (hhas : has → k.knowsAttach = true) (ht2 : k.progTypes 2 = true)
    (hf : k.knowsAttach = true → ∀ n fds, n ∉ fds → Truthful has (n :: fds) (f n (n :: fds)) ∧ (NoFaults s → Conclusive (f n (n :: fds)))) :
    Truthful has fds (withProgram s { progType := 2, attachType := a } fds f) ∧
      (NoFaults s → (∀ log, s.load { progType := 2, attachType := a } ≠ .verifier 22 log) → Conclusive (withProgram s { progType := 2, attachType := a } fds f)) := by
  have hc := h.load { progType := 2, attachType := a }
  have hnf1 : NoFaults s → ∀ e, s.load { progType := 2, attachType := a } = .other e → Telling e := fun hn => hn.2.1 _
  have hnf2 : NoFaults s → ∀ e log, s.load { progType := 2, attachType := a } = .verifier e log → Telling e := fun hn => hn.2.2.1 _
  unfold withProgram
  generalize s.load { progType := 2, attachType := a } = x at hc hnf1 hnf2 ⊢
  have hno : ∀ e, ¬ Telling e → ¬ e = E2BIG := fun e he x => he (by simp [Telling, x, E2BIG])
  cases hc with
  | fault e he =>
    simp only [if_neg (hno e he)]
    exact ⟨⟨by simp, by simp, by simp⟩, fun hn => absurd (hnf1 hn e rfl) he⟩
  | faultLog e log he =>
    simp only [if_neg (hno e he)]
    exact ⟨⟨by simp, by simp, by simp⟩, fun hn => absurd (hnf2 hn e log rfl) he⟩
  | tooNew e hx he =>
    have hnh : ¬ has := fun hh => by have := hhas hh; rw [hx.2] at this; simp at this
    rcases he with e' | e' <;> subst e'
    · simp only [E2BIG, if_true]
      exact ⟨⟨by simp, fun _ => hnh, by simp⟩, fun _ _ => Or.inr rfl⟩
    · simp only [show ¬ (22 = E2BIG) by decide, if_false]
      exact ⟨⟨by simp, by simp, by simp⟩, fun _ hx => absurd rfl (hx [])⟩
  | invalid hk hx => exact absurd ⟨ht2, trivial⟩ hx
  | noStructOps hk ht hs hx => simp at hx
  | loaded hk ht hs hn hx =>
    dsimp only
    obtain ⟨⟨f1, f2, f3⟩, f4⟩ := hf (hk ha) (s.pick fds) fds (h.pick fds)
    refine ⟨⟨f1, f2, ?_⟩, fun hn _ => f4 hn⟩
    dsimp only
    rw [f3]
    exact close_new (h.pick fds)
  | refused hk ht hs hn n hx => simp at hx
  | poison hk ht hs hn n hx => simp at hx
  | badArgs hk ht hs hn n hx => simp at hx

/-- C94, links: what HaveBPFLinkUprobeMulti, HaveBPFLinkKprobeMulti and HaveBPFLinkKprobeSession say is so. They say something, but for
kernels which refuse the field for the attach type with EINVAL (Linux 4.16). -/
theorem haveLink_truthful (hl : Linux k) (h : On k s) (ht : k.progTypes 2 = true) (fds : List Nat) :
    Truthful (k.uprobeMulti = true) fds (haveUprobeMulti s fds) ∧ Truthful (k.kprobeMulti = true) fds (haveKprobe s fds) ∧
    Truthful (k.kprobeSession = true) fds (haveKprobeSession s fds) ∧
    (NoFaults s → (∀ a log, s.load { progType := 2, attachType := a } ≠ .verifier 22 log) →
      Conclusive (haveUprobeMulti s fds) ∧ Conclusive (haveKprobe s fds) ∧ Conclusive (haveKprobeSession s fds)) := by
  have attach : ∀ b, (b = k.uprobeMulti ∨ b = k.kprobeMulti ∨ b = k.kprobeSession) → b = true → k.knowsAttach = true := by
    intro b hb hbt
    cases hk : k.knowsAttach with
    | true => rfl
    | false =>
      obtain ⟨h1, h2, h3⟩ := hl.linkAttach hk
      rcases hb with e | e | e <;> simp_all
  have up : Truthful (k.uprobeMulti = true) fds (haveUprobeMulti s fds) ∧
      (NoFaults s → (∀ log, s.load { progType := 2, attachType := 48 } ≠ .verifier 22 log) → Conclusive (haveUprobeMulti s fds)) := by
    refine withProgram_ok h 48 (by decide) fds _ _ (attach _ (Or.inl rfl)) ht ?_
    intro hk n fds' hn
    have hc := h.link { progFd := n, attachType := 48, uprobe := true, path := ['/'], count := 1 }
    have hnf : NoFaults s → ∀ e, s.link { progFd := n, attachType := 48, uprobe := true, path := ['/'], count := 1 } = .error e → Telling e := fun hn => hn.2.2.2 _
    generalize s.link { progFd := n, attachType := 48, uprobe := true, path := ['/'], count := 1 } = x at hc hnf ⊢
    cases hc with
    | fault e he =>
      have h1 : ¬ e = EBADF := fun x => he (by simp [Telling, x, EBADF])
      have h2 : ¬ e = EINVAL := fun x => he (by simp [Telling, x, EINVAL])
      simp only [if_neg h1, if_neg h2]
      exact ⟨⟨by simp, by simp, by simp⟩, fun hn => absurd (hnf hn e rfl) he⟩
    | unknown hx =>
      have hx : k.uprobeMulti ≠ true := by simpa [LinkKnown] using hx
      simp only [EBADF, EINVAL]
      exact ⟨⟨by simp, fun _ => hx, by simp⟩, fun _ => Or.inr rfl⟩
    | noFprobe hx hu => simp at hu
    | notAFile hx hcn hu hp =>
      have hx : k.uprobeMulti = true := by simpa [LinkKnown] using hx
      simp only [EBADF]
      exact ⟨⟨fun _ => hx, by simp, by simp⟩, fun _ => Or.inl rfl⟩
    | created hx hcn hp => exact absurd rfl (hp rfl)
  have kp : ∀ a b, (a = 42 ∧ b = k.kprobeMulti ∨ a = 56 ∧ b = k.kprobeSession) → Truthful (b = true) fds (haveKprobeMulti s a fds) ∧
      (NoFaults s → (∀ log, s.load { progType := 2, attachType := a } ≠ .verifier 22 log) → Conclusive (haveKprobeMulti s a fds)) := by
    intro a b hab
    refine withProgram_ok h a (by omega) fds _ _ (attach b (by rcases hab with e | e; exact Or.inr (Or.inl e.2); exact Or.inr (Or.inr e.2))) ht ?_
    intro hk n fds' hn
    have hc := h.link { progFd := n, attachType := a, uprobe := false, symbol := "vprintk".toList, count := 1 }
    have hnf : NoFaults s → ∀ e, s.link { progFd := n, attachType := a, uprobe := false, symbol := "vprintk".toList, count := 1 } = .error e → Telling e := fun hn => hn.2.2.2 _
    have hlk : LinkKnown k { progFd := n, attachType := a, uprobe := false, symbol := "vprintk".toList, count := 1 } ↔ b = true := by
      rcases hab with ⟨e1, e2⟩ | ⟨e1, e2⟩ <;> subst e1 <;> subst e2 <;> simp [LinkKnown]
    generalize s.link { progFd := n, attachType := a, uprobe := false, symbol := "vprintk".toList, count := 1 } = x at hc hnf ⊢
    cases hc with
    | fault e he =>
      have h1 : ¬ e = EINVAL := fun x => he (by simp [Telling, x, EINVAL])
      have h2 : ¬ e = EOPNOTSUPP := fun x => he (by simp [Telling, x, EOPNOTSUPP])
      simp only [if_neg h1, if_neg h2]
      exact ⟨⟨by simp, by simp, by simp⟩, fun hn => absurd (hnf hn e rfl) he⟩
    | unknown hx =>
      have hx : b ≠ true := by
        rcases hx with hx | hx
        · exact fun e => hx (hlk.mpr e)
        · simp at hx
      simp only [EINVAL]
      exact ⟨⟨by simp, fun _ => hx, by simp⟩, fun _ => Or.inr rfl⟩
    | noFprobe hx hu =>
      have hx : b ≠ true := fun e => hx (hlk.mpr e)
      simp only [EINVAL, EOPNOTSUPP]
      exact ⟨⟨by simp, fun _ => hx, by simp⟩, fun _ => Or.inr rfl⟩
    | notAFile hx hcn hu hp => simp at hu
    | created hx hcn hp =>
      have hx := hlk.mp hx
      exact ⟨⟨fun _ => hx, by simp, close_new (h.pick _)⟩, fun _ => Or.inl rfl⟩
  exact ⟨up.1, (kp 42 _ (Or.inl ⟨rfl, rfl⟩)).1, (kp 56 _ (Or.inr ⟨rfl, rfl⟩)).1, fun hn hx =>
    ⟨up.2 hn (hx 48), (kp 42 _ (Or.inl ⟨rfl, rfl⟩)).2 hn (hx 42), (kp 56 _ (Or.inr ⟨rfl, rfl⟩)).2 hn (hx 56)⟩⟩

/-- Every kernel has an answer to everything: there is a process on it, without faults. -/
theorem process_exists (k : Kernel) : ∃ s, On k s ∧ NoFaults s := by
  have hcreate : ∀ a, ∃ r, MapAnswer k a r ∧ ∀ e, r = .error e → Telling e := by
    intro a
    by_cases h1 : ∃ f ∈ fields a, k.union < f.1 ∧ f.2 ≠ 0
    · exact ⟨_, .tooBig h1, by rintro e ⟨⟩; simp [Telling]⟩
    · have hb : ∀ f ∈ fields a, k.union < f.1 → f.2 = 0 := fun f hf hx => Decidable.byContradiction fun hne => h1 ⟨f, hf, hx, hne⟩
      by_cases h2 : ∃ f ∈ fields a, k.last < f.1 ∧ f.2 ≠ 0
      · exact ⟨_, .tooNew h2 hb, by rintro e ⟨⟩; simp [Telling]⟩
      · have hb : ∀ f ∈ fields a, k.last < f.1 → f.2 = 0 := fun f hf hx => Decidable.byContradiction fun hne => h2 ⟨f, hf, hx, hne⟩
        by_cases h3 : k.types a.mapType = true ∧ Shape k a ∧ Common k a
        · obtain ⟨ht, hs, hc⟩ := h3
          by_cases h4 : (a.mapType = 12 ∨ a.mapType = 13) ∧ k.opened a.innerMapFd = false
          · exact ⟨_, .badInner hb ht hs hc h4, by rintro e ⟨⟩; simp [Telling]⟩
          · by_cases h5 : a.btfValueTypeId ≠ 0 ∧ k.opened a.btfFd = false
            · exact ⟨_, .badBtf hb ht hs hc h5, by rintro e ⟨⟩; simp [Telling]⟩
            · by_cases h6 : a.mapType = 26 ∧ k.structOps a.btfVmlinuxValueTypeId = false
              · exact ⟨_, .notStructOps hb ht hs hc h6, by rintro e ⟨⟩; simp [Telling]⟩
              · refine ⟨_, .created hb ht hs hc (fun x => ?_) (fun x => ?_) (fun x => ?_), by rintro e ⟨⟩⟩
                · exact (Bool.not_eq_false _).mp fun y => h4 ⟨x, y⟩
                · exact (Bool.not_eq_false _).mp fun y => h5 ⟨x, y⟩
                · exact (Bool.not_eq_false _).mp fun y => h6 ⟨x, y⟩
        · exact ⟨_, .invalid hb h3, by rintro e ⟨⟩; simp [Telling]⟩
  have hload : ∀ r, ∃ x, LoadAnswer k r x ∧ (∀ e, x = .other e → Telling e) ∧ ∀ e log, x = .verifier e log → Telling e := by
    intro r
    by_cases h1 : r.attachType ≠ 0 ∧ k.knowsAttach = false
    · exact ⟨_, .tooNew 7 h1 (Or.inl rfl), by rintro e ⟨⟩, by rintro e log ⟨⟩; simp [Telling]⟩
    · have hk : r.attachType ≠ 0 → k.knowsAttach = true := fun x => (Bool.not_eq_false _).mp fun y => h1 ⟨x, y⟩
      by_cases h2 : k.progTypes r.progType = true ∧ ProgShape r
      · obtain ⟨ht, hs⟩ := h2
        by_cases h3 : r.progType = 27
        · exact ⟨_, .noStructOps hk ht hs h3, by rintro e ⟨⟩, by rintro e log ⟨⟩; simp [Telling]⟩
        · by_cases h4 : ∀ n, r.helper = some n → k.helpers n = true ∧ k.allowed r.progType n = true
          · exact ⟨_, .loaded hk ht hs h3 h4, by rintro e ⟨⟩, by rintro e log ⟨⟩⟩
          · cases hh : r.helper with
            | none => exact absurd (fun n e => by rw [hh] at e; cases e) h4
            | some n =>
              have h5 : ¬ (k.helpers n = true ∧ k.allowed r.progType n = true) := by
                intro hx
                refine h4 fun m e => ?_
                rw [hh] at e; cases e; exact hx
              have : ∃ line, Refusal n (!k.helpers n) line := by
                cases k.helpers n
                · exact ⟨_, [], rfl⟩
                · exact ⟨_, Or.inr ⟨[], rfl⟩⟩
              obtain ⟨line, hline⟩ := this
              exact ⟨_, .refused hk ht hs h3 n hh h5 [line] ⟨line, ⟨[], [], rfl, by simp⟩, hline⟩, by rintro e ⟨⟩, by rintro e log ⟨⟩; simp [Telling]⟩
      · exact ⟨_, .invalid hk h2, by rintro e ⟨⟩, by rintro e log ⟨⟩; simp [Telling]⟩
  have hlink : ∀ r, ∃ x, LinkAnswer k r x ∧ ∀ e, x = .error e → Telling e := by
    intro r
    by_cases h1 : ¬ LinkKnown k r ∨ r.count = 0
    · exact ⟨_, .unknown h1, by rintro e ⟨⟩; simp [Telling]⟩
    · have h2 : LinkKnown k r := Classical.byContradiction fun x => h1 (Or.inl x)
      have h3 : r.count ≠ 0 := fun x => h1 (Or.inr x)
      by_cases h4 : r.uprobe = true ∧ r.path = ['/']
      · exact ⟨_, .notAFile h2 h3 h4.1 h4.2, by rintro e ⟨⟩; simp [Telling]⟩
      · exact ⟨_, .created h2 h3 (fun a b => h4 ⟨a, b⟩), by rintro e ⟨⟩⟩
  refine ⟨⟨fun a => Classical.choose (hcreate a), fun r => Classical.choose (hload r), fun r => Classical.choose (hlink r),
    fun fds => fds.foldr (fun x m => max (x + 1) m) 0, fun _ fds => (none, fds)⟩, ⟨?_, ?_, ?_, ?_⟩, ?_, ?_, ?_, ?_⟩
  · exact fun a => (Classical.choose_spec (hcreate a)).1
  · exact fun r => (Classical.choose_spec (hload r)).1
  · exact fun r => (Classical.choose_spec (hlink r)).1
  · intro fds
    have : ∀ x ∈ fds, x < fds.foldr (fun x m => max (x + 1) m) 0 := by
      intro x hx
      induction fds with
      | nil => cases hx
      | cons y ys ih =>
        simp only [List.foldr_cons]
        rcases List.mem_cons.mp hx with e | hx
        · subst e; omega
        · have := ih hx; omega
    intro hc
    exact absurd (this _ hc) (by dsimp only; omega)
  · exact fun a e he => (Classical.choose_spec (hcreate a)).2 e he
  · exact fun r e he => (Classical.choose_spec (hload r)).2.1 e he
  · exact fun r e log he => (Classical.choose_spec (hload r)).2.2 e log he
  · exact fun r e he => (Classical.choose_spec (hlink r)).2 e he

end

/-- A kernel like Linux 5.10, as a 64-bit process sees it. -/
def linux510 : Kernel where
  types t := decide (1 ≤ t ∧ t ≤ 28)
  flags t := if t = 1 then 385 else if t = 2 then 1024 + 4096 + 385 else 1
  union := 120
  last := 64
  page := 4096
  storageKey := 16
  shortKey := true
  opened n := decide (n ≤ 5)
  structOps _ := false
  progTypes t := decide (1 ≤ t ∧ t ≤ 30)
  knowsAttach := true
  helpers n := decide (1 ≤ n ∧ n ≤ 159)
  allowed t n := decide (1 ≤ n ∧ n ≤ 20) || (t == 6 && n == 44)
  uprobeMulti := false
  kprobeMulti := false
  kprobeSession := false

/-- Nothing about it is out of the ordinary. -/
theorem linux510_linux : Linux linux510 where
  last := by decide
  order := by decide
  union := by decide
  page := ⟨12, rfl⟩
  page32 := by decide
  minusOne := by decide
  intOne := rfl
  noPrealloc := by rintro t (e | e | e | e | e) <;> subst e <;> decide
  nested := by intros; decide
  localStorage := by intros; decide
  structOpsMap := by intros; decide
  arena := by decide
  always := by decide
  first := by rintro t i _ _ (e | e | e | e) <;> subst e <;> decide
  firstHash := by intros; decide
  attach := by intros; rfl
  helper := by
    intro t n h
    simp only [linux510, Bool.or_eq_true, decide_eq_true_eq, Bool.and_eq_true, beq_iff_eq] at h ⊢
    omega
  linkAttach := by decide

/-- The hypotheses are met: on Linux 5.10 there are ring buffers, but no arenas, and BPF_F_INNER_MAP; bpf_xdp_adjust_head can be called by XDP
but not by socket filters, helper 200 doesn't exist, and there are no links for several kprobes. No descriptor is left open. -/
example : ∃ s, On linux510 s ∧ NoFaults s ∧ haveMapType s ⟨8, 4096⟩ 27 [0, 1, 2] = (none, [0, 1, 2]) ∧
    haveMapType s ⟨8, 4096⟩ 33 [0, 1, 2] = (some .notSupported, [0, 1, 2]) ∧ haveMapType s ⟨8, 4096⟩ 19 [0, 1, 2] = (none, [0, 1, 2]) ∧
    (haveMapType s ⟨4, 4096⟩ 19 [0, 1, 2]).1 = some .notSupported ∧
    haveMapFlag s 4096 [0, 1, 2] = (none, [0, 1, 2]) ∧ haveProgramType s 31 [0, 1, 2] = (some .notSupported, [0, 1, 2]) ∧
    haveProgramHelper s 1 44 [0, 1, 2] = (some .notSupported, [0, 1, 2]) ∧ haveProgramHelper s 6 200 [0, 1, 2] = (some .notSupported, [0, 1, 2]) ∧
    (haveProgramHelper s 6 44 [0, 1, 2]).1 ≠ some .notSupported := by
  obtain ⟨s, h, hn⟩ := process_exists linux510
  have hl := linux510_linux
  have yes : ∀ {has : Prop} {o : Out}, has → Truthful has [0, 1, 2] o → Conclusive o → o = (none, [0, 1, 2]) := by
    rintro has ⟨o1, o2⟩ hh ⟨_, h2, h3⟩ hc
    dsimp only at h3; subst h3
    rcases hc with e | e
    · dsimp only at e; rw [e]
    · exact absurd hh (h2 e)
  have no : ∀ {has : Prop} {o : Out}, ¬ has → Truthful has [0, 1, 2] o → Conclusive o → o = (some .notSupported, [0, 1, 2]) := by
    rintro has ⟨o1, o2⟩ hh ⟨h1, _, h3⟩ hc
    dsimp only at h3; subst h3
    rcases hc with e | e
    · exact absurd (h1 e) hh
    · dsimp only at e; rw [e]
  refine ⟨s, h, hn, ?_, ?_, ?_, ?_, ?_, ?_, ?_, ?_, ?_⟩
  · exact yes (by decide) (haveMapType_truthful_partial hl h ⟨8, 4096⟩ rfl 27 (by decide) _) (haveMapType_conclusive_partial hl h hn _ rfl 27 (by decide) (by decide) _)
  · exact no (by decide) (haveMapType_truthful_partial hl h ⟨8, 4096⟩ rfl 33 (by decide) _) (haveMapType_conclusive_partial hl h hn _ rfl 33 (by decide) (by decide) _)
  · exact yes (by decide) (haveMapType_truthful_partial hl h ⟨8, 4096⟩ rfl 19 (by decide) _) (haveMapType_conclusive_partial hl h hn _ rfl 19 (by decide) (by decide) _)
  · exact storage_missed h hn 19 (Or.inl rfl) rfl ⟨4, 4096⟩ rfl _
  · obtain ⟨h1, h2⟩ := haveMapFlag_truthful hl h 12 (by decide) [0, 1, 2]
    exact yes ⟨by decide, 2, by decide, by decide⟩ h1 (h2 hn)
  · obtain ⟨h1, h2⟩ := haveProgramType_truthful_partial hl h 31 (by decide) [0, 1, 2]
    exact no (by decide) h1 (h2 (by decide) (by decide) hn)
  · obtain ⟨h1, h2⟩ := haveProgramHelper_truthful hl h 1 44 [0, 1, 2]
    have hx : ¬ HelperThere linux510 1 44 := by simp [HelperThere, linux510]
    exact no hx h1 (Or.inr ((h2 hn (by decide) (by decide) (by decide) (by decide) (by decide) (by decide)).1 hx (by decide) (by decide) (by decide)))
  · obtain ⟨h1, h2⟩ := haveProgramHelper_truthful hl h 6 200 [0, 1, 2]
    have hx : ¬ HelperThere linux510 6 200 := by simp [HelperThere, linux510]
    exact no hx h1 (Or.inr ((h2 hn (by decide) (by decide) (by decide) (by decide) (by decide) (by decide)).1 hx (by decide) (by decide) (by decide)))
  · obtain ⟨h1, h2⟩ := haveProgramHelper_truthful hl h 6 44 [0, 1, 2]
    exact fun e => h1.2.1 e (by simp [HelperThere, linux510])

end Ebpf.Features
