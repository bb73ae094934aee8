import Verif.Spec.BtfCache
/-!
# C73: specs and caches can be shared by goroutines
-/
namespace Ebpf.BtfCache
open Ebpf.BtfCacheSpec

theorem set_same (pc : Nat → PC) (t : Nat) (p : PC) : set pc t p t = p := by simp [set]
theorem set_other (pc : Nat → PC) (t u : Nat) (p : PC) (h : u ≠ t) : set pc t p u = pc u := by simp [set, h]

/-- Locks are exclusive, and accesses happen under the lock of the decoder or of one based on it. -/
structure Inv (base : Nat → Option Nat) (elf : Nat → Bool) (used : Nat → Prop) (pc : Nat → PC) : Prop where
  excl : ∀ t u d, (pc t).holds d = true → (pc u).holds d = true → t = u
  cover : ∀ t, match pc t with
    | .idle => True
    | .inflating d cur => used d ∧ (cur = d ∨ base d = some cur)
    | .reading d => used d
    | .copying d => used d
    | .copyingBase d b => used d ∧ base d = some b
    | .fixing d => used d ∧ elf d = true
    | .copyingElf d => used d ∧ elf d = true

theorem holds_set {pc : Nat → PC} {t : Nat} {p : PC} (h : ∀ d, p.holds d = true → (pc t).holds d = true ∨ ∀ u, (pc u).holds d = false)
    (he : ∀ t u d, (pc t).holds d = true → (pc u).holds d = true → t = u) : ∀ a b d, (set pc t p a).holds d = true → (set pc t p b).holds d = true → a = b := by
  intro a b d ha hb
  by_cases h1 : a = t
  · by_cases h2 : b = t
    · rw [h1, h2]
    · rw [h1, set_same] at ha
      rw [set_other _ _ _ _ h2] at hb
      rcases h d ha with h | h
      · rw [h1]; exact he t b d h hb
      · rw [h b] at hb; cases hb
  · rw [set_other _ _ _ _ h1] at ha
    by_cases h2 : b = t
    · rw [h2, set_same] at hb
      rcases h d hb with h | h
      · rw [h2]; exact he a t d ha h
      · rw [h a] at ha; cases ha
    · rw [set_other _ _ _ _ h2] at hb
      exact he a b d ha hb

theorem step_inv {base : Nat → Option Nat} {elf : Nat → Bool} {used : Nat → Prop} {pc pc' : Nat → PC} (hi : Inv base elf used pc) (hs : Step base elf used pc pc') : Inv base elf used pc' := by
  obtain ⟨he, hc⟩ := hi
  have cov : ∀ (t : Nat) (p : PC), (match p with
      | .idle => True
      | .inflating d cur => used d ∧ (cur = d ∨ base d = some cur)
      | .reading d => used d
      | .copying d => used d
      | .copyingBase d b => used d ∧ base d = some b
      | .fixing d => used d ∧ elf d = true
      | .copyingElf d => used d ∧ elf d = true) → ∀ u, match set pc t p u with
      | .idle => True
      | .inflating d cur => used d ∧ (cur = d ∨ base d = some cur)
      | .reading d => used d
      | .copying d => used d
      | .copyingBase d b => used d ∧ base d = some b
      | .fixing d => used d ∧ elf d = true
      | .copyingElf d => used d ∧ elf d = true := by
    intro t p hp u
    by_cases h : u = t
    · rw [h, set_same]; exact hp
    · rw [set_other _ _ _ _ h]; exact hc u
  cases hs with
  | lookup hu hp hf => exact ⟨holds_set (fun d hd => Or.inr (by simp only [PC.holds, beq_iff_eq] at hd; subst hd; exact hf)) he, cov _ _ ⟨hu, Or.inl rfl⟩⟩
  | @enterBase t d b hp hb =>
    have := hc t; rw [hp] at this
    exact ⟨holds_set (fun d hd => Or.inl (by rw [hp]; exact hd)) he, cov _ _ ⟨this.1, Or.inr hb⟩⟩
  | @leaveBase t d b hp =>
    have := hc t; rw [hp] at this
    exact ⟨holds_set (fun d hd => Or.inl (by rw [hp]; exact hd)) he, cov _ _ ⟨this.1, Or.inl rfl⟩⟩
  | lookupDone hp => exact ⟨holds_set (fun d hd => by cases hd) he, cov _ _ trivial⟩
  | typeID hu hp hf => exact ⟨holds_set (fun d hd => Or.inr (by simp only [PC.holds, beq_iff_eq] at hd; subst hd; exact hf)) he, cov _ _ hu⟩
  | typeIDDone hp => exact ⟨holds_set (fun d hd => by cases hd) he, cov _ _ trivial⟩
  | copy hu hp hf => exact ⟨holds_set (fun d hd => Or.inr (by simp only [PC.holds, beq_iff_eq] at hd; subst hd; exact hf)) he, cov _ _ hu⟩
  | @copyBase t d b hp hb hf =>
    have := hc t; rw [hp] at this
    refine ⟨holds_set (fun x hx => ?_) he, cov _ _ ⟨this, hb⟩⟩
    simp only [PC.holds, Bool.or_eq_true, beq_iff_eq] at hx
    rcases hx with hx | hx
    · subst hx; exact Or.inl (by rw [hp]; simp [PC.holds])
    · subst hx; exact Or.inr hf
  | @copyBaseDone t d b hp =>
    have := hc t; rw [hp] at this
    refine ⟨holds_set (fun x hx => Or.inl ?_) he, cov _ _ this.1⟩
    rw [hp]
    simp only [PC.holds, beq_iff_eq] at hx ⊢
    simp [hx]
  | copyDone hp => exact ⟨holds_set (fun d hd => by cases hd) he, cov _ _ trivial⟩
  | @lookupFix t d hp hx =>
    have := hc t; rw [hp] at this
    exact ⟨holds_set (fun d hd => by cases hd) he, cov _ _ ⟨this.1, hx⟩⟩
  | fixDone hp => exact ⟨holds_set (fun d hd => by cases hd) he, cov _ _ trivial⟩
  | @copyElf t d hp hx =>
    have := hc t; rw [hp] at this
    exact ⟨holds_set (fun d hd => by cases hd) he, cov _ _ ⟨this, hx⟩⟩
  | copyElfDone hp => exact ⟨holds_set (fun d hd => by cases hd) he, cov _ _ trivial⟩

theorem reach_inv {base : Nat → Option Nat} {elf : Nat → Bool} {used : Nat → Prop} {pc : Nat → PC} (h : Reach base elf used pc) : Inv base elf used pc := by
  induction h with
  | init => exact ⟨(by intro t u d h; cases h), fun _ => trivial⟩
  | step _ hs ih => exact step_inv ih hs

/-- A goroutine accessing a decoder holds the lock of a spec in use that is the decoder or has it as its base. -/
theorem access_covered {base : Nat → Option Nat} {elf : Nat → Bool} {used : Nat → Prop} {pc : Nat → PC} (hi : Inv base elf used pc) {t d : Nat} {w : Bool} (h : (pc t).access = some (.maps d, w)) :
    ∃ s, used s ∧ (pc t).holds s = true ∧ (s = d ∨ base s = some d) := by
  have hc := hi.cover t
  cases hp : pc t with
  | idle => rw [hp] at h; cases h
  | inflating s cur =>
    rw [hp] at h hc
    cases h
    exact ⟨s, hc.1, by simp [PC.holds], hc.2.imp Eq.symm id⟩
  | reading s => rw [hp] at h hc; cases h; exact ⟨d, hc, by simp [PC.holds], Or.inl rfl⟩
  | copying s => rw [hp] at h hc; cases h; exact ⟨d, hc, by simp [PC.holds], Or.inl rfl⟩
  | copyingBase s b => rw [hp] at h hc; cases h; exact ⟨s, hc.1, by simp [PC.holds], Or.inr hc.2⟩
  | fixing s => rw [hp] at h; cases h
  | copyingElf s => rw [hp] at h; cases h

/-- What was read from an ELF is accessed only in specs from an ELF. -/
theorem access_fixups {base : Nat → Option Nat} {elf : Nat → Bool} {used : Nat → Prop} {pc : Nat → PC} (hi : Inv base elf used pc) {t d : Nat} {w : Bool}
    (h : (pc t).access = some (.fixups d, w)) : used d ∧ elf d = true := by
  have hc := hi.cover t
  cases hp : pc t with
  | fixing s => rw [hp] at h hc; cases h; exact hc
  | copyingElf s => rw [hp] at h hc; cases h; exact hc
  | idle | inflating | reading | copying | copyingBase => rw [hp] at h; cases h

/-- **C73.** Specs that do not share a base and weren't read from an ELF can be used by any number of goroutines: in no interleaving of lookups, `TypeID` and
`Copy` is a map accessed while it is written.

Partial: specs of two modules, or of a module and the kernel, from one `Cache` share a base (`module_specs_race`), and specs read from an ELF keep track of
Datasecs without a lock (`elf_spec_race`). -/
theorem specs_race_free_partial {base : Nat → Option Nat} {elf : Nat → Bool} {used : Nat → Prop} (hs : Separate base used) (hx : ∀ d, used d → elf d = false)
    {pc : Nat → PC} (h : Reach base elf used pc) : ¬ Race pc := by
  rintro ⟨t, u, r, w1, w2, hne, h1, h2, _⟩
  have hi := reach_inv h
  cases r with
  | fixups d =>
    obtain ⟨g1, g2⟩ := access_fixups hi h1
    rw [hx d g1] at g2
    cases g2
  | maps d =>
    obtain ⟨s, s1, s2, s3⟩ := access_covered hi h1
    obtain ⟨v, v1, v2, v3⟩ := access_covered hi h2
    have : s = v := by
      rcases s3 with s3 | s3
      · rcases v3 with v3 | v3
        · rw [s3, v3]
        · subst s3; exact absurd s1 (hs.notBase v s v1 v3)
      · rcases v3 with v3 | v3
        · subst v3; exact absurd v1 (hs.notBase s v s1 s3)
        · exact hs.bases s v d s1 v1 s3 v3
    subst this
    exact hne (hi.excl t u s s2 v2)

/-- The decoders of specs that do not share a base are never accessed while they are written, whatever the specs were read from. -/
theorem decoders_race_free {base : Nat → Option Nat} {elf : Nat → Bool} {used : Nat → Prop} (hs : Separate base used)
    {pc : Nat → PC} (h : Reach base elf used pc) {t u d : Nat} {w1 w2 : Bool} (h1 : (pc t).access = some (.maps d, w1)) (h2 : (pc u).access = some (.maps d, w2)) :
    t = u := by
  have hi := reach_inv h
  obtain ⟨s, s1, s2, s3⟩ := access_covered hi h1
  obtain ⟨v, v1, v2, v3⟩ := access_covered hi h2
  have : s = v := by
    rcases s3 with s3 | s3
    · rcases v3 with v3 | v3
      · rw [s3, v3]
      · subst s3; exact absurd s1 (hs.notBase v s v1 v3)
    · rcases v3 with v3 | v3
      · subst v3; exact absurd v1 (hs.notBase s v s1 s3)
      · exact hs.bases s v d s1 v1 s3 v3
  subst this
  exact hi.excl t u s s2 v2

/-- Specs without a base which aren't from an ELF can all be used at once. -/
theorem plain_specs_race_free {pc : Nat → PC} (h : Reach (fun _ => none) (fun _ => false) (fun _ => True) pc) : ¬ Race pc :=
  specs_race_free_partial ⟨fun _ _ _ _ _ h => (by cases h), fun _ _ _ h => (by cases h)⟩ (fun _ _ => rfl) h

/-- **Counterexample.** Two goroutines look up Datasecs in one spec that was read from an ELF: both write to `fixups` (and, if it is the same Datasec, to its
size and offsets) at the same time. -/
theorem elf_spec_race : ∃ pc, Reach (fun _ => none) (fun _ => true) (fun _ => True) pc ∧ Race pc := by
  refine ⟨set (set (set (set (fun _ => .idle) 0 (.inflating 1 1)) 0 (.fixing 1)) 1 (.inflating 1 1)) 1 (.fixing 1), ?_, 0, 1, .fixups 1, true, true, by decide, rfl, rfl, Or.inl rfl⟩
  refine .step (.step (.step (.step .init (.lookup (t := 0) (d := 1) trivial rfl (fun _ => rfl))) (.lookupFix (t := 0) (d := 1) rfl rfl))
    (.lookup (t := 1) (d := 1) trivial rfl ?_)) (.lookupFix (t := 1) (d := 1) rfl rfl)
  intro u
  by_cases h : u = 0
  · subst h; rfl
  · simp [set, h, PC.holds]

/-- Reachable and not idle: two goroutines in lookups of different specs. -/
example : Reach (fun _ => none) (fun _ => false) (fun _ => True) (set (set (fun _ => .idle) 0 (.inflating 1 1)) 1 (.inflating 2 2)) := by
  refine .step (.step .init (.lookup (t := 0) (d := 1) trivial rfl (fun _ => rfl))) (.lookup (t := 1) (d := 2) trivial rfl ?_)
  intro u
  by_cases h : u = 0
  · subst h; rfl
  · simp [set, h, PC.holds]

/-- **Counterexample.** The specs 1 and 2 of two modules have the kernel spec 0 as their base, as `Cache.Module` arranges. Two goroutines looking up types in
them, each under the lock of its spec, write to the maps of the base at the same time. -/
theorem module_specs_race : ∃ pc, Reach (fun d => if d = 0 then none else some 0) (fun _ => false) (fun d => d ≠ 0) pc ∧ Race pc := by
  refine ⟨set (set (set (set (fun _ => .idle) 0 (.inflating 1 1)) 1 (.inflating 2 2)) 0 (.inflating 1 0)) 1 (.inflating 2 0), ?_, 0, 1, .maps 0, true, true, by decide, rfl, rfl, Or.inl rfl⟩
  refine .step (.step (.step (.step .init (.lookup (t := 0) (d := 1) (by decide) rfl (fun _ => rfl))) (.lookup (t := 1) (d := 2) (by decide) rfl ?_))
    (.enterBase (t := 0) (d := 1) rfl rfl)) (.enterBase (t := 1) (d := 2) rfl rfl)
  intro u
  by_cases h : u = 0
  · subst h; rfl
  · simp [set, h, PC.holds]

/-- **Counterexample.** The same happens with a module and the kernel itself. -/
theorem module_and_kernel_race : ∃ pc, Reach (fun d => if d = 0 then none else some 0) (fun _ => false) (fun _ => True) pc ∧ Race pc := by
  refine ⟨set (set (set (fun _ => .idle) 0 (.inflating 1 1)) 1 (.inflating 0 0)) 0 (.inflating 1 0), ?_, 0, 1, .maps 0, true, true, by decide, rfl, rfl, Or.inl rfl⟩
  refine .step (.step (.step .init (.lookup (t := 0) (d := 1) trivial rfl (fun _ => rfl))) (.lookup (t := 1) (d := 0) trivial rfl ?_))
    (.enterBase (t := 0) (d := 1) rfl rfl)
  intro u
  by_cases h : u = 0
  · subst h; rfl
  · simp [set, h, PC.holds]

/-! ## the cache -/

theorem cset_same (pc : Nat → CPC) (t : Nat) (p : CPC) : cset pc t p t = p := by simp [cset]
theorem cset_other (pc : Nat → CPC) (t u : Nat) (p : CPC) (h : u ≠ t) : cset pc t p u = pc u := by simp [cset, h]

/-- What a goroutine knows at a point. -/
def Ok (s : CState) : CPC → Prop
  | .peeked r (some x) => s.lookup r = some x
  | .based n b => s.moduleTypes n = none ∧ s.kernelTypes = some b
  | .leaving r (some x) => s.lookup r = some x
  | _ => True

/-- The invariant of the cache. -/
structure CInv (s : CState) : Prop where
  excl : ∀ t u, (s.pc t).writer = true → (s.pc u).writer = true → t = u
  noReader : ∀ t u, (s.pc t).writer = true → (s.pc u).reader = false
  ok : ∀ t, Ok s (s.pc t)
  returned : ∀ r x, (r, x) ∈ s.returned → s.lookup r = some x
  bases : ∀ n x, s.moduleTypes n = some x → x < s.nextSpec ∧ ∃ k, s.baseOf x = some k ∧ s.kernelTypes = some k
  kernel : ∀ k, s.kernelTypes = some k → k < s.nextSpec ∧ s.baseOf k = none
  distinct : ∀ n m x, s.moduleTypes n = some x → s.moduleTypes m = some x → n = m
  fresh : ∀ x, s.nextSpec ≤ x → s.baseOf x = none

/-- Moving one goroutine without changing the cache. -/
theorem move_inv {s : CState} (hi : CInv s) (t : Nat) (p : CPC) (ret : List (Req × Nat))
    (hw : p.writer = true → (s.pc t).writer = true ∨ ∀ u, (s.pc u).writer = false ∧ (s.pc u).reader = false)
    (hr : p.reader = true → (s.pc t).reader = true ∨ ∀ u, (s.pc u).writer = false) (hok : Ok s p)
    (hret : ∀ r x, (r, x) ∈ ret → s.lookup r = some x) : CInv { s with pc := cset s.pc t p, returned := ret } := by
  obtain ⟨i1, i2, i3, i4, i5, i6, i7, i8⟩ := hi
  have hwr : ∀ c : CPC, c.writer = true → c.reader = false := by intro c hc; cases c <;> simp_all [CPC.writer, CPC.reader]
  refine ⟨?_, ?_, ?_, hret, i5, i6, i7, i8⟩
  · intro a b ha hb
    by_cases h1 : a = t
    · by_cases h2 : b = t
      · rw [h1, h2]
      · simp only [h1, cset_same] at ha
        simp only [cset_other _ _ _ _ h2] at hb
        rcases hw ha with h | h
        · rw [h1]; exact i1 t b h hb
        · rw [(h b).1] at hb; cases hb
    · simp only [cset_other _ _ _ _ h1] at ha
      by_cases h2 : b = t
      · simp only [h2, cset_same] at hb
        rcases hw hb with h | h
        · rw [h2]; exact i1 a t ha h
        · rw [(h a).1] at ha; cases ha
      · simp only [cset_other _ _ _ _ h2] at hb
        exact i1 a b ha hb
  · intro a b ha
    by_cases h1 : a = t
    · simp only [h1, cset_same] at ha
      by_cases h2 : b = t
      · simp only [h2, cset_same]; exact hwr p ha
      · simp only [cset_other _ _ _ _ h2]
        rcases hw ha with h | h
        · exact i2 t b h
        · exact (h b).2
    · simp only [cset_other _ _ _ _ h1] at ha
      by_cases h2 : b = t
      · simp only [h2, cset_same]
        cases hpr : p.reader with
        | false => rfl
        | true =>
          rcases hr hpr with h | h
          · rw [i2 a t ha] at h; cases h
          · rw [h a] at ha; cases ha
      · simp only [cset_other _ _ _ _ h2]
        exact i2 a b ha
  · intro u
    by_cases h : u = t
    · simp only [h, cset_same]; exact hok
    · simp only [cset_other _ _ _ _ h]; exact i3 u

/-- Replacing an entry that is missing, by the only writer. -/
theorem fill_inv {s s' : CState} (hi : CInv s) (t : Nat) (p : CPC) (hpc : s'.pc = cset s.pc t p) (hret : s'.returned = s.returned)
    (hold : (s.pc t).writer = true) (hw : p.writer = true)
    (hmono : ∀ r x, s.lookup r = some x → s'.lookup r = some x) (hok : Ok s' p) (hb : ∀ n x, s'.moduleTypes n = some x → x < s'.nextSpec ∧ ∃ k, s'.baseOf x = some k ∧ s'.kernelTypes = some k)
    (hk : ∀ k, s'.kernelTypes = some k → k < s'.nextSpec ∧ s'.baseOf k = none) (hd : ∀ n m x, s'.moduleTypes n = some x → s'.moduleTypes m = some x → n = m)
    (hf : ∀ x, s'.nextSpec ≤ x → s'.baseOf x = none) : CInv s' := by
  have others : ∀ u, u ≠ t → (s.pc u).writer = false ∧ (s.pc u).reader = false := by
    intro u hu
    refine ⟨?_, hi.noReader t u hold⟩
    cases h : (s.pc u).writer with
    | false => rfl
    | true => exact absurd (hi.excl u t h hold) hu
  have hpr : p.reader = false := by cases p <;> simp_all [CPC.writer, CPC.reader]
  refine ⟨?_, ?_, ?_, ?_, hb, hk, hd, hf⟩
  · intro a b ha hb
    rw [hpc] at ha hb
    have one : ∀ a, (cset s.pc t p a).writer = true → a = t := by
      intro a ha
      by_cases h : a = t
      · exact h
      · rw [cset_other _ _ _ _ h, (others a h).1] at ha; cases ha
    rw [one a ha, one b hb]
  · intro a b _
    rw [hpc]
    by_cases h : b = t
    · rw [h, cset_same]; exact hpr
    · rw [cset_other _ _ _ _ h]; exact (others b h).2
  · intro u
    rw [hpc]
    by_cases h : u = t
    · rw [h, cset_same]; exact hok
    · rw [cset_other _ _ _ _ h]
      have ⟨o1, o2⟩ := others u h
      cases hp : s.pc u <;> simp_all [CPC.writer, CPC.reader, Ok]
  · intro r x hx
    rw [hret] at hx
    exact hmono r x (hi.returned r x hx)

theorem cstep_inv {s s' : CState} (hi : CInv s) (hs : CStep s s') : CInv s' := by
  have mv := fun t p ret => move_inv hi t p ret
  cases hs with
  | call hp => exact mv _ _ _ (fun h => by cases h) (fun h => by cases h) trivial hi.returned
  | rlock hp hf => exact mv _ _ _ (fun h => by cases h) (fun _ => Or.inr hf) trivial hi.returned
  | @peek t r hp =>
    refine mv _ _ _ (fun h => by cases h) (fun _ => Or.inl (by rw [hp]; rfl)) ?_ hi.returned
    cases h : s.lookup r with
    | none => trivial
    | some x => exact h
  | @hit t r x hp =>
    refine mv _ _ _ (fun h => by cases h) (fun h => by cases h) trivial ?_
    have := hi.ok t
    rw [hp] at this
    intro r' x' h
    rcases List.mem_cons.mp h with h | h
    · cases h; exact this
    · exact hi.returned _ _ h
  | miss hp => exact mv _ _ _ (fun h => by cases h) (fun h => by cases h) trivial hi.returned
  | lock hp hf => exact mv _ _ _ (fun _ => Or.inr hf) (fun h => by cases h) trivial hi.returned
  | recheck hp hl => exact mv _ _ _ (fun _ => Or.inl (by rw [hp]; rfl)) (fun h => by cases h) hl hi.returned
  | @loadKernel t hp hk =>
    refine fill_inv hi t _ rfl rfl (by rw [hp]; rfl) rfl ?_ rfl ?_ ?_ hi.distinct (fun x hx => hi.fresh x (Nat.le_of_succ_le hx))
    · intro r x h
      cases r with
      | kernel => simp only [CState.lookup] at h; rw [hk] at h; cases h
      | module n => exact h
    · intro n x h
      obtain ⟨_, k, _, h2⟩ := hi.bases n x h
      rw [hk] at h2; cases h2
    · intro k h
      cases h
      refine ⟨Nat.lt_succ_self _, hi.fresh _ (Nat.le_refl _)⟩
  | @loadKernelFails t hp hk =>
    have := mv t (.leaving .kernel none) s.returned (fun _ => Or.inl (by rw [hp]; rfl)) (fun h => by cases h) trivial hi.returned
    simpa [hk] using this
  | baseHit hp hn hk => exact mv _ _ _ (fun _ => Or.inl (by rw [hp]; rfl)) (fun h => by cases h) ⟨hn, hk⟩ hi.returned
  | @baseLoad t n hp hn hk =>
    refine fill_inv hi t _ rfl rfl (by rw [hp]; rfl) rfl ?_ ⟨hn, rfl⟩ ?_ ?_ hi.distinct (fun x hx => hi.fresh x (Nat.le_of_succ_le hx))
    · intro r x h
      cases r with
      | kernel => simp only [CState.lookup] at h; rw [hk] at h; cases h
      | module n => exact h
    · intro n x h
      obtain ⟨_, k, _, h2⟩ := hi.bases n x h
      rw [hk] at h2; cases h2
    · intro k h
      cases h
      refine ⟨Nat.lt_succ_self _, hi.fresh _ (Nat.le_refl _)⟩
  | @baseFails t n hp hn hk =>
    have := mv t (.leaving (.module n) none) s.returned (fun _ => Or.inl (by rw [hp]; rfl)) (fun h => by cases h) trivial hi.returned
    simpa [hk] using this
  | @loadModule t n b hp =>
    have ho := hi.ok t
    rw [hp] at ho
    obtain ⟨hn, hk⟩ := ho
    refine fill_inv hi t _ rfl rfl (by rw [hp]; rfl) rfl ?_ ?_ ?_ ?_ ?_ ?_
    · intro r x h
      cases r with
      | kernel => exact h
      | module m =>
        by_cases hm : m = n
        · subst hm; simp only [CState.lookup] at h; rw [hn] at h; cases h
        · simp only [CState.lookup, if_neg hm]; exact h
    · simp [Ok, CState.lookup]
    · intro m x h
      by_cases hm : m = n
      · simp only [hm, if_true] at h
        cases h
        exact ⟨Nat.lt_succ_self _, b, by simp, hk⟩
      · simp only [if_neg hm] at h
        obtain ⟨h1, k, h2, h3⟩ := hi.bases m x h
        refine ⟨Nat.lt_succ_of_lt h1, k, ?_, h3⟩
        simp only
        rw [if_neg (by omega)]; exact h2
    · intro k h
      obtain ⟨h1, h2⟩ := hi.kernel k h
      refine ⟨Nat.lt_succ_of_lt h1, ?_⟩
      simp only
      rw [if_neg (by omega)]; exact h2
    · intro a c x ha hc
      have lt := fun m x h => (hi.bases m x h).1
      by_cases h1 : a = n
      · by_cases h2 : c = n
        · rw [h1, h2]
        · simp only [h1, if_true] at ha; simp only [if_neg h2] at hc
          cases ha
          exact absurd (lt _ _ hc) (Nat.lt_irrefl _)
      · simp only [if_neg h1] at ha
        by_cases h2 : c = n
        · simp only [h2, if_true] at hc
          cases hc
          exact absurd (lt _ _ ha) (Nat.lt_irrefl _)
        · simp only [if_neg h2] at hc
          exact hi.distinct a c x ha hc
    · intro x hx
      have hx : s.nextSpec + 1 ≤ x := hx
      simp only
      rw [if_neg (by omega)]
      exact hi.fresh x (by omega)
  | loadModuleFails hp => exact mv _ _ _ (fun _ => Or.inl (by rw [hp]; rfl)) (fun h => by cases h) trivial hi.returned
  | @unlock t r x hp =>
    refine mv _ _ _ (fun h => by cases h) (fun h => by cases h) trivial ?_
    have := hi.ok t
    rw [hp] at this
    intro r' x' h
    rcases List.mem_cons.mp h with h | h
    · cases h; exact this
    · exact hi.returned _ _ h
  | unlockErr hp => exact mv _ _ _ (fun h => by cases h) (fun h => by cases h) trivial hi.returned

theorem creach_inv {s : CState} (h : CReach s) : CInv s := by
  induction h with
  | init =>
    refine ⟨?_, ?_, ?_, ?_, ?_, ?_, ?_, ?_⟩
    · intro t u h; cases h
    · intro t u h; cases h
    · intro t; trivial
    · intro r x h; cases h
    · intro n x h; cases h
    · intro k h; cases h
    · intro n m x h; cases h
    · intro x _; rfl
  | step _ hs ih => exact cstep_inv ih hs

/-- **C73.** However many goroutines call `Kernel` and `Module` on one cache, and however loads fail in between, two calls for the same thing that succeed return the
same spec. -/
theorem cache_one_spec {s : CState} (h : CReach s) {r : Req} {x y : Nat} (hx : (r, x) ∈ s.returned) (hy : (r, y) ∈ s.returned) : x = y := by
  have hi := creach_inv h
  have := hi.returned r x hx
  rw [hi.returned r y hy] at this
  cases this; rfl

/-- **C73.** A module's spec is based on the spec `Kernel` returns, and is neither it nor that of another module. -/
theorem cache_module_base {s : CState} (h : CReach s) {n x : Nat} (hx : (Req.module n, x) ∈ s.returned) :
    (∃ k, s.baseOf x = some k ∧ ∀ k', (Req.kernel, k') ∈ s.returned → k' = k) ∧ (∀ k', (Req.kernel, k') ∈ s.returned → s.baseOf k' = none ∧ k' ≠ x) ∧
    ∀ m, (Req.module m, x) ∈ s.returned → m = n := by
  have hi := creach_inv h
  obtain ⟨_, k, h2, h3⟩ := hi.bases n x (hi.returned _ _ hx)
  refine ⟨⟨k, h2, ?_⟩, ?_, ?_⟩
  · intro k' hk'
    have : s.kernelTypes = some k' := hi.returned _ _ hk'
    rw [h3] at this; cases this; rfl
  · intro k' hk'
    have hk : s.kernelTypes = some k' := hi.returned _ _ hk'
    have hb := (hi.kernel k' hk).2
    refine ⟨hb, ?_⟩
    intro he; subst he
    rw [hb] at h2; cases h2
  · intro m hm
    exact hi.distinct m n x (hi.returned _ _ hm) (hi.returned _ _ hx)

/-- Reachable: one goroutine gets module 7, which loads the kernel first, and another one then gets the kernel. -/
example : ∃ s, CReach s ∧ (Req.module 7, 1) ∈ s.returned ∧ (Req.kernel, 0) ∈ s.returned := by
  have r1 := CReach.step .init (.call (t := 0) (r := .module 7) rfl)
  have r2 := CReach.step r1 (.rlock (t := 0) (r := .module 7) rfl (by intro u; by_cases h : u = 0 <;> simp [cset, h, CPC.writer, CState.init]))
  have r3 := CReach.step r2 (.peek (t := 0) (r := .module 7) rfl)
  have r4 := CReach.step r3 (.miss (t := 0) (r := .module 7) rfl)
  have r5 := CReach.step r4 (.lock (t := 0) (r := .module 7) rfl (by intro u; by_cases h : u = 0 <;> simp [cset, h, CPC.writer, CPC.reader, CState.init]))
  have r6 := CReach.step r5 (.baseLoad (t := 0) (n := 7) rfl rfl rfl)
  have r7 := CReach.step r6 (.loadModule (t := 0) (n := 7) (b := 0) rfl)
  have r8 := CReach.step r7 (.unlock (t := 0) (r := .module 7) (x := 1) rfl)
  have r9 := CReach.step r8 (.call (t := 1) (r := .kernel) rfl)
  have r10 := CReach.step r9 (.rlock (t := 1) (r := .kernel) rfl (by intro u; by_cases h : u = 0 <;> by_cases h' : u = 1 <;> simp [cset, h, h', CPC.writer, CState.init]))
  have r11 := CReach.step r10 (.peek (t := 1) (r := .kernel) rfl)
  have r12 := CReach.step r11 (.hit (t := 1) (r := .kernel) (x := 0) rfl)
  refine ⟨_, r12, ?_, ?_⟩
  · exact List.mem_cons_of_mem _ (List.mem_cons_self ..)
  · exact List.mem_cons_self ..

end Ebpf.BtfCache
