import Verif.Spec.AttachTarget
/-!
# C76: programs attach to the kernel type they name, and BTF handles are closed
-/
namespace Ebpf.AttachTarget
open Ebpf.AttachTargetSpec

/-! ## ownership -/

theorem balanced_clock {st : St} {k : Option Handle} (h : Balanced st k) (c : Nat) : Balanced { st with clock := c } k := h

/-- Closing what was kept. -/
theorem balanced_close {st : St} {k : Option Handle} (h : Balanced st k) : Balanced (close k st) none := by
  cases k with
  | none => exact h
  | some x =>
    intro n
    refine ⟨(by intro e; cases e), ?_⟩
    have h1 := (h n).1
    have h2 := (h n).2
    simp only [close, Option.map_some, Option.map_none, List.count_cons, beq_iff_eq, ne_eq, reduceCtorEq, not_false_eq_true, and_true, Option.some.injEq] at h1 h2 ⊢
    by_cases e : x.n = n
    · have := h1 e
      simp [e, this] at h2 ⊢
      exact h2
    · simp [e] at h2 ⊢
      exact h2

/-- Opening a handle and closing the previous one. -/
theorem balanced_swap {st : St} {k : Option Handle} (h : Balanced st k) (id c : Nat) : Balanced (close k { st with clock := c, opened := st.opened + 1 }) (some ⟨st.opened, id⟩) := by
  have hc := balanced_close h
  intro n
  have h2 := (hc n).2
  have e1 : (close k { st with clock := c, opened := st.opened + 1 }).opened = st.opened + 1 := by cases k <;> rfl
  have e2 : (close k { st with clock := c, opened := st.opened + 1 }).closed = (close k st).closed := by cases k <;> rfl
  have e3 : (close k st).opened = st.opened := by cases k <;> rfl
  rw [e1, e2]
  rw [e3] at h2
  simp only [Option.map_some, Option.map_none, ne_eq, reduceCtorEq, not_false_eq_true, and_true, Option.some.injEq] at h2 ⊢
  refine ⟨by omega, ?_⟩
  rw [h2]
  by_cases hn : n < st.opened
  · rw [if_pos hn, if_pos ⟨by omega, by omega⟩]
  · rw [if_neg hn, if_neg (by omega)]

/-- The iterator owns its handle and nothing else. -/
theorem nextLoop_balanced (w : World) : ∀ (fuel id : Nat) (it : It) (st : St) (b : Bool) (it' : It) (st' : St), nextLoop w fuel id it st = some (b, it', st') → Balanced st it.handle →
    Balanced st' it'.handle ∧ (b = false → it'.handle = none) := by
  intro fuel
  induction fuel with
  | zero => intro id it st b it' st' h; cases h
  | succ fuel ih =>
    intro id it st b it' st' h hb
    rw [nextLoop] at h
    split at h
    · cases h; exact ⟨balanced_close hb, fun _ => rfl⟩
    · cases h; exact ⟨balanced_close hb, fun _ => rfl⟩
    · split at h
      · exact ih _ _ _ _ _ _ h hb
      · cases h; exact ⟨balanced_close hb, fun _ => rfl⟩
      · cases h; exact ⟨balanced_swap hb _ _, fun e => by cases e⟩

theorem findHandleLoop_balanced (w : World) (pred : Info → Bool) (n : Nat) (hinfo : ∀ t i e, w.info t i ≠ .error e) :
    ∀ (fuel : Nat) (it : It) (st : St) (r : Except Err Handle) (st' : St), findHandleLoop w pred n fuel it st = some (r, st') → Balanced st it.handle → Balanced st' r.toOption := by
  intro fuel
  induction fuel with
  | zero => intro it st r st' h; cases h
  | succ fuel ih =>
    intro it st r st' h hb
    rw [findHandleLoop] at h
    split at h
    · cases h
    · rename_i it1 st1 hn
      obtain ⟨h1, h2⟩ := nextLoop_balanced w n _ _ _ _ _ _ hn hb
      rw [h2 rfl] at h1
      split at h <;> (cases h; exact h1)
    · rename_i it1 st1 hn
      obtain ⟨h1, _⟩ := nextLoop_balanced w n _ _ _ _ _ _ hn hb
      split at h
      · cases h
      · rename_i x hx
        rw [hx] at h1
        split at h
        · rename_i e he; exact absurd he (hinfo _ _ _)
        · split at h
          · cases h; exact h1
          · refine ih _ _ _ _ h ?_
            rw [hx]; exact h1

/-- **C76, FindHandle.** When FindHandle returns, every handle it opened has been closed exactly once, except the one it returns.

Partial: unless the kernel fails to describe a handle; see `findHandle_leaks`. -/
theorem findHandle_owned_partial (w : World) (pred : Info → Bool) (fuel : Nat) (st st' : St) (r : Except Err Handle) (hinfo : ∀ t i e, w.info t i ≠ .error e)
    (h : findHandle w pred fuel st = some (r, st')) (hb : Balanced st none) : Balanced st' r.toOption :=
  findHandleLoop_balanced w pred fuel hinfo fuel _ st r st' h hb

/-- What can go wrong after a handle has been opened by the search for a module. -/
structure Readable (w : World) : Prop where
  info : ∀ t i e, w.info t i ≠ .error e
  module : ∀ n e, w.module n ≠ .error e
  lookup : ∀ n types, w.module n = .ok types → ∀ name kind e, types name kind = .error e → e = .notFound

theorem findInModuleLoop_balanced (w : World) (name : Bytes) (kind : Kind) (n : Nat) (hw : Readable w) :
    ∀ (fuel : Nat) (it : It) (st : St) (r : Except Err (Found × Handle)) (st' : St), findInModuleLoop w name kind n fuel it st = some (r, st') → Balanced st it.handle →
      Balanced st' (r.toOption.map (·.2)) := by
  intro fuel
  induction fuel with
  | zero => intro it st r st' h; cases h
  | succ fuel ih =>
    intro it st r st' h hb
    rw [findInModuleLoop] at h
    split at h
    · cases h
    · rename_i it1 st1 hn
      obtain ⟨h1, h2⟩ := nextLoop_balanced w n _ _ _ _ _ _ hn hb
      rw [h2 rfl] at h1
      split at h <;> (cases h; exact h1)
    · rename_i it1 st1 hn
      obtain ⟨h1, _⟩ := nextLoop_balanced w n _ _ _ _ _ _ hn hb
      split at h
      · cases h
      · rename_i x hx
        rw [hx] at h1
        split at h
        · rename_i e he; exact absurd he (hw.info _ _ _)
        · split at h
          · split at h
            · rename_i e he; exact absurd he (hw.module _ _)
            · rename_i types ht
              split at h
              · exact ih _ _ _ _ h (by rw [hx]; exact h1)
              · rename_i e hne he
                exact absurd (hw.lookup _ _ ht _ _ _ he) hne
              · cases h; exact h1
          · exact ih _ _ _ _ h (by rw [hx]; exact h1)

theorem findInKernel_balanced (w : World) (name : Bytes) (kind : Kind) (fuel : Nat) (hw : Readable w) (st st' : St) (r : Except Err (Found × Option Handle))
    (h : findInKernel w name kind fuel st = some (r, st')) (hb : Balanced st none) : Balanced st' (r.toOption.bind (·.2)) := by
  unfold findInKernel at h
  split at h
  · cases h; exact hb
  · split at h
    · cases h; exact hb
    · split at h
      · cases h
      · rename_i t hh st1 he
        cases h
        exact findInModuleLoop_balanced w name kind fuel hw fuel _ _ _ _ he hb
      · rename_i st1 he
        cases h
        exact findInModuleLoop_balanced w name kind fuel hw fuel _ _ _ _ he hb
      · rename_i e st1 hne he
        cases h
        exact findInModuleLoop_balanced w name kind fuel hw fuel _ _ _ _ he hb
    · cases h; exact hb

theorem findProgramTarget_balanced (w : World) (name : Bytes) (p : ProgType) (a : AttachType) (fuel : Nat) (hw : Readable w) (st st' : St) (r : Except Err (Option Handle × Nat))
    (h : findProgramTarget w name p a fuel st = some (r, st')) (hb : Balanced st none) : Balanced st' (r.toOption.bind (·.1)) := by
  unfold findProgramTarget at h
  split at h
  · cases h; exact hb
  · split at h
    · cases h
    · rename_i st1 he
      cases h; exact findInKernel_balanced w _ _ fuel hw _ _ _ he hb
    · rename_i e st1 hne he
      cases h; exact findInKernel_balanced w _ _ fuel hw _ _ _ he hb
    · rename_i t hh st1 he
      have hB := findInKernel_balanced w _ _ fuel hw _ _ _ he hb
      simp only [Except.toOption, Option.bind_some] at hB
      split at h
      · cases h; exact balanced_close hB
      · cases h; exact hB

/-- **C76, loading.** When loading a program other than struct_ops returns, whether it succeeded or not, every handle opened to find its attach target has been closed exactly once.

Partial: unless a module's BTF cannot be read or a name is ambiguous in it, and not for struct_ops programs; see `module_leaks` and `structOps_leaks`. -/
theorem load_owned_partial (w : World) (attachTo : Bytes) (p : ProgType) (a : AttachType) (fuel : Nat) (hw : Readable w) (hp : p ≠ .structOps) (st st' : St) (r : Except Err Target)
    (h : loadWithTarget w attachTo p a fuel st = some (r, st')) (hb : Balanced st none) : Balanced st' none := by
  unfold loadWithTarget attachTarget at h
  rw [if_neg hp] at h
  cases hf : findProgramTarget w attachTo p a fuel st with
  | none => rw [hf] at h; cases h
  | some x =>
    obtain ⟨x, st1⟩ := x
    have hB := findProgramTarget_balanced w attachTo p a fuel hw _ _ _ hf hb
    rw [hf] at h
    cases x with
    | error e =>
      simp only [Except.toOption, Option.bind_none] at hB
      cases e <;> (simp only [Option.some.injEq, Prod.mk.injEq] at h; obtain ⟨_, h⟩ := h; subst h; exact hB)
    | ok y =>
      simp only [Except.toOption, Option.bind_some] at hB
      simp only [Option.some.injEq, Prod.mk.injEq] at h; obtain ⟨_, h⟩ := h; subst h
      exact balanced_close hB

/-! ## the search ends -/

theorem nextLoop_ends (w : World) (bound : Nat) (hw : ∀ t i j, w.nextId t i = .ok j → i < j ∧ j ≤ bound) : ∀ (fuel id : Nat) (it : It) (st : St), bound < id + fuel → 0 < fuel →
    ∃ b it' st', nextLoop w fuel id it st = some (b, it', st') ∧ (b = true → id < it'.id ∧ it'.id ≤ bound ∧ it'.handle.isSome = true) := by
  intro fuel
  induction fuel with
  | zero => intro id it st _ h; omega
  | succ fuel ih =>
    intro id it st hlt _
    rw [nextLoop]
    split
    · exact ⟨_, _, _, rfl, fun e => by cases e⟩
    · exact ⟨_, _, _, rfl, fun e => by cases e⟩
    · rename_i j hj
      obtain ⟨h1, h2⟩ := hw _ _ _ hj
      split
      · obtain ⟨b, it', st', g1, g2⟩ := ih j it { st with clock := st.clock + 2 } (by omega) (by omega)
        exact ⟨b, it', st', g1, fun e => ⟨by have := (g2 e).1; omega, (g2 e).2⟩⟩
      · exact ⟨_, _, _, rfl, fun e => by cases e⟩
      · exact ⟨_, _, _, rfl, fun _ => ⟨h1, h2, rfl⟩⟩

theorem findHandleLoop_ends (w : World) (pred : Info → Bool) (bound n : Nat) (hn : bound < n) (hw : ∀ t i j, w.nextId t i = .ok j → i < j ∧ j ≤ bound) :
    ∀ (fuel : Nat) (it : It) (st : St), bound < it.id + fuel → 0 < fuel → (findHandleLoop w pred n fuel it st).isSome = true := by
  intro fuel
  induction fuel with
  | zero => intro it st _ h; omega
  | succ fuel ih =>
    intro it st hlt _
    obtain ⟨b, it', st', g1, g2⟩ := nextLoop_ends w bound hw n it.id it st (by omega) (by omega)
    rw [findHandleLoop, show next w n it st = _ from g1]
    cases b with
    | false => simp only; split <;> rfl
    | true =>
      obtain ⟨g3, g4, g5⟩ := g2 rfl
      obtain ⟨x, hx⟩ := Option.isSome_iff_exists.mp g5
      simp only [hx]
      split
      · rfl
      · split
        · rfl
        · exact ih _ _ (by omega) (by omega)

theorem findInModuleLoop_ends (w : World) (name : Bytes) (kind : Kind) (bound n : Nat) (hn : bound < n) (hw : ∀ t i j, w.nextId t i = .ok j → i < j ∧ j ≤ bound) :
    ∀ (fuel : Nat) (it : It) (st : St), bound < it.id + fuel → 0 < fuel → (findInModuleLoop w name kind n fuel it st).isSome = true := by
  intro fuel
  induction fuel with
  | zero => intro it st _ h; omega
  | succ fuel ih =>
    intro it st hlt _
    obtain ⟨b, it', st', g1, g2⟩ := nextLoop_ends w bound hw n it.id it st (by omega) (by omega)
    rw [findInModuleLoop, show next w n it st = _ from g1]
    cases b with
    | false => simp only; split <;> rfl
    | true =>
      obtain ⟨g3, g4, g5⟩ := g2 rfl
      obtain ⟨x, hx⟩ := Option.isSome_iff_exists.mp g5
      simp only [hx]
      split
      · rfl
      · split
        · split
          · rfl
          · split
            · exact ih _ _ (by omega) (by omega)
            · rfl
            · rfl
        · exact ih _ _ (by omega) (by omega)

theorem findInKernel_ends (w : World) (name : Bytes) (kind : Kind) (bound fuel : Nat) (hn : bound < fuel) (hw : ∀ t i j, w.nextId t i = .ok j → i < j ∧ j ≤ bound) (st : St) :
    (findInKernel w name kind fuel st).isSome = true := by
  unfold findInKernel
  split
  · rfl
  · split
    · rfl
    · have := findInModuleLoop_ends w name kind bound fuel hn hw fuel ⟨0, none, none⟩ st (by show bound < 0 + fuel; omega) (by omega)
      obtain ⟨⟨x, st1⟩, hx⟩ := Option.isSome_iff_exists.mp this
      rw [hx]
      cases x with
      | error e => cases e <;> rfl
      | ok y => rfl
    · rfl

theorem findProgramTarget_ends (w : World) (name : Bytes) (p : ProgType) (a : AttachType) (bound fuel : Nat) (hn : bound < fuel)
    (hw : ∀ t i j, w.nextId t i = .ok j → i < j ∧ j ≤ bound) (st : St) : (findProgramTarget w name p a fuel st).isSome = true := by
  unfold findProgramTarget
  split
  · rfl
  · rename_i tn kind _
    obtain ⟨⟨x, st1⟩, hx⟩ := Option.isSome_iff_exists.mp (findInKernel_ends w tn kind bound fuel hn hw st)
    rw [hx]
    cases x with
    | error e => cases e <;> rfl
    | ok y => simp only; split <;> rfl

theorem structOpsTarget_ends (w : World) (name member : Bytes) (bound fuel : Nat) (hn : bound < fuel) (hw : ∀ t i j, w.nextId t i = .ok j → i < j ∧ j ≤ bound) (st : St) :
    (structOpsTarget w name member fuel st).isSome = true := by
  unfold structOpsTarget
  obtain ⟨⟨x, st1⟩, hx⟩ := Option.isSome_iff_exists.mp (findInKernel_ends w name .struct bound fuel hn hw st)
  rw [hx]
  cases x with
  | error e => rfl
  | ok y => simp only; split; rfl; split <;> rfl

theorem attachTarget_ends (w : World) (attachTo : Bytes) (p : ProgType) (a : AttachType) (bound fuel : Nat) (hn : bound < fuel)
    (hw : ∀ t i j, w.nextId t i = .ok j → i < j ∧ j ≤ bound) (st : St) : (attachTarget w attachTo p a fuel st).isSome = true := by
  unfold attachTarget
  split
  · split
    · rfl
    · obtain ⟨⟨x, st1⟩, hx⟩ := Option.isSome_iff_exists.mp (findProgramTarget_ends w (cut attachTo).1 p a bound fuel hn hw st)
      rw [hx]
      have := structOpsTarget_ends w (cut attachTo).1 (cut attachTo).2 bound fuel hn hw st1
      cases x with
      | error e => cases e <;> first | rfl | exact this
      | ok y => exact this
  · obtain ⟨⟨x, st1⟩, hx⟩ := Option.isSome_iff_exists.mp (findProgramTarget_ends w attachTo p a bound fuel hn hw st)
    rw [hx]
    cases x with
    | error e => cases e <;> rfl
    | ok y => rfl

/-- **C76, termination.** Whatever the kernel does, as long as the next ID is larger than the last one and IDs are bounded (they are 32 bits wide), FindHandle and the search for an attach target end. -/
theorem search_ends (w : World) (bound : Nat) (hw : ∀ t i j, w.nextId t i = .ok j → i < j ∧ j ≤ bound) (fuel : Nat) (hf : bound < fuel) (st : St) :
    (∀ pred, (findHandle w pred fuel st).isSome = true) ∧ (∀ attachTo p a, (loadWithTarget w attachTo p a fuel st).isSome = true) := by
  refine ⟨fun pred => findHandleLoop_ends w pred bound fuel hf hw fuel ⟨0, none, none⟩ st (by show bound < 0 + fuel; omega) (by omega), fun attachTo p a => ?_⟩
  obtain ⟨⟨x, st1⟩, hx⟩ := Option.isSome_iff_exists.mp (attachTarget_ends w attachTo p a bound fuel hf hw st)
  unfold loadWithTarget
  rw [hx]
  cases x <;> rfl

/-! ## the right target -/

/-- The next object of a static kernel. -/
theorem next_static {w : World} {objs : List (Nat × Info)} (hs : Static w objs) (n id : Nat) (it : It) (st : St) (he : it.err = none) :
    (objs.find? (fun o => id < o.1) = none ∧ ∃ it' st', nextLoop w (n + 1) id it st = some (false, it', st') ∧ it'.err = none) ∨
    (∃ o h it' st', objs.find? (fun o => id < o.1) = some o ∧ nextLoop w (n + 1) id it st = some (true, it', st') ∧ it'.err = none ∧ it'.id = o.1 ∧ it'.handle = some h ∧ h.id = o.1) := by
  rw [nextLoop, hs.nextId]
  cases hf : objs.find? (fun o => id < o.1) with
  | none => left; exact ⟨rfl, _, _, rfl, he⟩
  | some o =>
    right
    simp only
    rw [hs.openId _ o (List.mem_of_find?_eq_some hf)]
    exact ⟨o, ⟨st.opened, o.1⟩, _, _, rfl, rfl, he, rfl, rfl, rfl⟩

/-- The objects after an ID. -/
theorem find_after {objs pre post : List (Nat × Info)} (he : objs = pre ++ post) (id : Nat) (hid : ∀ o ∈ pre, o.1 ≤ id) (hpost : ∀ o ∈ post, id < o.1) :
    objs.find? (fun o => id < o.1) = post.head? := by
  rw [he, List.find?_append]
  have : pre.find? (fun o => decide (id < o.1)) = none := by
    rw [List.find?_eq_none]
    intro x hx
    have := hid x hx
    simp; omega
  rw [this]
  cases post with
  | nil => rfl
  | cons a as =>
    have := hpost a List.mem_cons_self
    simp [this]

theorem findHandleLoop_static {w : World} {objs : List (Nat × Info)} (hs : Static w objs) (pred : Info → Bool) (n : Nat) : ∀ (post pre : List (Nat × Info)) (fuel : Nat) (it : It) (st : St),
    objs = pre ++ post → (∀ o ∈ pre, o.1 ≤ it.id) → (∀ o ∈ post, it.id < o.1) → it.err = none → post.length < fuel →
    ∃ st', (post.find? (fun o => pred o.2) = none ∧ findHandleLoop w pred (n + 1) fuel it st = some (.error .notFound, st')) ∨
      ∃ o h, post.find? (fun o => pred o.2) = some o ∧ findHandleLoop w pred (n + 1) fuel it st = some (.ok h, st') ∧ h.id = o.1 := by
  intro post
  induction post with
  | nil =>
    intro pre fuel it st he h1 h2 h3 hf
    obtain ⟨fuel, rfl⟩ : ∃ f, fuel = f + 1 := ⟨fuel - 1, by omega⟩
    have hfa := find_after he it.id h1 h2
    rcases next_static hs n it.id it st h3 with ⟨g1, it', st', g2, g3⟩ | ⟨o, h, it', st', g1, _⟩
    · refine ⟨st', Or.inl ⟨rfl, ?_⟩⟩
      rw [findHandleLoop, show next w (n + 1) it st = _ from g2]
      simp only [g3]
    · rw [hfa] at g1; cases g1
  | cons a as ih =>
    intro pre fuel it st he h1 h2 h3 hf
    obtain ⟨fuel, rfl⟩ : ∃ f, fuel = f + 1 := ⟨fuel - 1, by omega⟩
    have hfa := find_after he it.id h1 h2
    rcases next_static hs n it.id it st h3 with ⟨g1, _⟩ | ⟨o, h, it', st', g1, g2, g3, g4, g5, g6⟩
    · rw [hfa] at g1; cases g1
    · rw [hfa] at g1
      cases g1
      have ha : a ∈ objs := by rw [he]; simp
      rw [findHandleLoop, show next w (n + 1) it st = _ from g2]
      simp only [g5, g6, hs.info _ a ha]
      cases hp : pred a.2 with
      | true => exact ⟨_, Or.inr ⟨a, h, by simp [hp], rfl, g6⟩⟩
      | false =>
        simp only [Bool.false_eq_true, if_false]
        have hsort := hs.sorted
        rw [he, List.pairwise_append] at hsort
        have := ih (pre ++ [a]) fuel it' { st' with clock := st'.clock + 1 } (by rw [he]; simp) ?_ ?_ g3 (by simp at hf; omega)
        · obtain ⟨s, hs'⟩ := this
          exact ⟨s, by simpa [hp] using hs'⟩
        · intro o ho
          rw [g4]
          rcases List.mem_append.mp ho with ho | ho
          · have := hsort.2.2 o ho a List.mem_cons_self; omega
          · simp only [List.mem_singleton] at ho; rw [ho]; omega
        · intro o ho
          rw [g4]
          exact (List.pairwise_cons.mp hsort.2.1).1 o ho

/-- **C76, FindHandle.** On a kernel whose BTF objects do not change meanwhile, FindHandle returns the object with the lowest ID that satisfies the predicate, and ErrNotFound if there is none. -/
theorem findHandle_first (w : World) (objs : List (Nat × Info)) (hs : Static w objs) (pred : Info → Bool) (fuel : Nat) (hf : objs.length < fuel) (st : St) :
    ∃ st', (objs.find? (fun o => pred o.2) = none ∧ findHandle w pred fuel st = some (.error .notFound, st')) ∨
      ∃ o h, objs.find? (fun o => pred o.2) = some o ∧ findHandle w pred fuel st = some (.ok h, st') ∧ h.id = o.1 := by
  obtain ⟨n, rfl⟩ : ∃ n, fuel = n + 1 := ⟨fuel - 1, by omega⟩
  exact findHandleLoop_static hs pred n objs [] (n + 1) ⟨0, none, none⟩ st rfl (by intro o h; cases h) hs.positive rfl hf

/-- The types of the modules among some objects. -/
def Lists (mods : List (Nat × Info × (Bytes → Kind → Option Found))) (objs : List (Nat × Info)) : Prop :=
  mods.map (fun m => (m.1, m.2.1)) = objs.filter (fun o => o.2.isKernel && o.2.name ≠ [0x76#8, 0x6d#8, 0x6c#8, 0x69#8, 0x6e#8, 0x75#8, 0x78#8])

theorem findInModuleLoop_static {w : World} {objs : List (Nat × Info)} (hs : Static w objs) (name : Bytes) (kind : Kind) (n : Nat) :
    ∀ (post pre : List (Nat × Info)) (mods : List (Nat × Info × (Bytes → Kind → Option Found))) (fuel : Nat) (it : It) (st : St), Lists mods post →
    (∀ m ∈ mods, w.module m.2.1.name = .ok (answer m.2.2)) → objs = pre ++ post → (∀ o ∈ pre, o.1 ≤ it.id) → (∀ o ∈ post, it.id < o.1) → it.err = none → post.length < fuel →
    ∃ st', (mods.findSome? (fun m => (m.2.2 name kind).map fun t => (t, some m.1)) = none ∧ findInModuleLoop w name kind (n + 1) fuel it st = some (.error .notFound, st')) ∨
      ∃ t h, mods.findSome? (fun m => (m.2.2 name kind).map fun t => (t, some m.1)) = some (t, some h.id) ∧ findInModuleLoop w name kind (n + 1) fuel it st = some (.ok (t, h), st') := by
  intro post
  induction post with
  | nil =>
    intro pre mods fuel it st hl hm he h1 h2 h3 hf
    obtain ⟨fuel, rfl⟩ : ∃ f, fuel = f + 1 := ⟨fuel - 1, by omega⟩
    have hmn : mods = [] := by unfold Lists at hl; simpa using hl
    have hfa := find_after he it.id h1 h2
    rcases next_static hs n it.id it st h3 with ⟨g1, it', st', g2, g3⟩ | ⟨o, h, it', st', g1, _⟩
    · refine ⟨st', Or.inl ⟨by rw [hmn]; rfl, ?_⟩⟩
      rw [findInModuleLoop, show next w (n + 1) it st = _ from g2]
      simp only [g3]
    · rw [hfa] at g1; cases g1
  | cons a as ih =>
    intro pre mods fuel it st hl hm he h1 h2 h3 hf
    obtain ⟨fuel, rfl⟩ : ∃ f, fuel = f + 1 := ⟨fuel - 1, by omega⟩
    have hfa := find_after he it.id h1 h2
    rcases next_static hs n it.id it st h3 with ⟨g1, _⟩ | ⟨o, h, it', st', g1, g2, g3, g4, g5, g6⟩
    · rw [hfa] at g1; cases g1
    · rw [hfa] at g1
      cases g1
      have ha : a ∈ objs := by rw [he]; simp
      rw [findInModuleLoop, show next w (n + 1) it st = _ from g2]
      simp only [g5, g6, hs.info _ a ha]
      have hsort := hs.sorted
      rw [he, List.pairwise_append] at hsort
      have hpre : ∀ o ∈ pre ++ [a], o.1 ≤ it'.id := by
        intro o ho
        rw [g4]
        rcases List.mem_append.mp ho with ho | ho
        · have := hsort.2.2 o ho a List.mem_cons_self; omega
        · simp only [List.mem_singleton] at ho; rw [ho]; omega
      have hpost : ∀ o ∈ as, it'.id < o.1 := by
        intro o ho
        rw [g4]
        exact (List.pairwise_cons.mp hsort.2.1).1 o ho
      have hobj : objs = (pre ++ [a]) ++ as := by rw [he]; simp
      cases hi : a.2.isModule with
      | false =>
        simp only [Bool.false_eq_true, if_false]
        have hl' : Lists mods as := by
          unfold Lists at hl ⊢
          rw [hl, List.filter_cons]
          have : (a.2.isKernel && decide (a.2.name ≠ [0x76#8, 0x6d#8, 0x6c#8, 0x69#8, 0x6e#8, 0x75#8, 0x78#8])) = false := hi
          rw [this]
          simp
        exact ih (pre ++ [a]) mods fuel it' { st' with clock := st'.clock + 1 } hl' hm hobj hpre hpost g3 (by simp at hf; omega)
      | true =>
        simp only [if_true]
        have hl0 := hl
        unfold Lists at hl0
        rw [List.filter_cons] at hl0
        have ht : (a.2.isKernel && decide (a.2.name ≠ [0x76#8, 0x6d#8, 0x6c#8, 0x69#8, 0x6e#8, 0x75#8, 0x78#8])) = true := hi
        rw [ht] at hl0
        simp only [if_true] at hl0
        cases mods with
        | nil => simp at hl0
        | cons m ms =>
          rw [List.map_cons, List.cons.injEq] at hl0
          obtain ⟨e1, e2⟩ := hl0
          have e3 : m.1 = a.1 := by rw [← e1]
          have e4 : m.2.1 = a.2 := by rw [← e1]
          have hmt := hm m List.mem_cons_self
          rw [e4] at hmt
          rw [hmt]
          simp only [List.findSome?_cons, answer]
          cases hq : m.2.2 name kind with
          | some t =>
            simp only [Option.map_some]
            exact ⟨_, Or.inr ⟨t, h, by rw [g6, e3], rfl⟩⟩
          | none =>
            simp only [Option.map_none]
            exact ih (pre ++ [a]) ms fuel it' { st' with clock := st'.clock + 1 } e2 (fun x hx => hm x (List.mem_cons_of_mem _ hx)) hobj hpre hpost g3 (by simp at hf; omega)

theorem findInKernel_static {w : World} {k : Kernel} {objs : List (Nat × Info)} (hw : Holds w k objs) (name : Bytes) (kind : Kind) (fuel : Nat) (hf : objs.length < fuel) (st : St) :
    ∃ st', (resolve k name kind = none ∧ findInKernel w name kind fuel st = some (.error .notFound, st')) ∨
      ∃ t h, resolve k name kind = some (t, h.map (·.id)) ∧ findInKernel w name kind fuel st = some (.ok (t, h), st') := by
  obtain ⟨n, rfl⟩ : ∃ n, fuel = n + 1 := ⟨fuel - 1, by omega⟩
  unfold findInKernel resolve
  rw [hw.kernel]
  simp only [answer]
  cases hc : k.core name kind with
  | some t => exact ⟨st, Or.inr ⟨t, none, rfl, rfl⟩⟩
  | none =>
    simp only
    obtain ⟨st', h⟩ := findInModuleLoop_static hw.static name kind n objs [] k.modules (n + 1) ⟨0, none, none⟩ st hw.modules hw.types rfl (by intro o h; cases h) hw.static.positive rfl hf
    refine ⟨st', ?_⟩
    rcases h with ⟨h1, h2⟩ | ⟨t, h, h1, h2⟩
    · left; rw [h2]; exact ⟨h1, rfl⟩
    · right; exact ⟨t, some h, h1, by rw [h2]⟩

theorem targetName_iff (name : Bytes) (p : ProgType) (a : AttachType) (tn : Bytes) (kind : Kind) : targetName name p a = some (tn, kind) ↔ TargetOf name p a tn kind := by
  constructor
  · intro h
    unfold targetName at h
    split at h <;> cases h
    · exact .structOps
    · exact .lsm
    · exact .iter
    · exact .fentry
    · exact .fexit
    · exact .modifyReturn
    · exact .rawTp
  · intro h
    cases h <;> rfl

/-- **C76, the target.** A program that is not struct_ops attaches to the kernel type its name, type and attach type stand for: that of the kernel proper, or of the first module that has it, with the
descriptor of that module's BTF; if there is none, the error is ErrNotSupported. -/
theorem attach_right_target (w : World) (k : Kernel) (objs : List (Nat × Info)) (hw : Holds w k objs) (fuel : Nat) (hf : objs.length < fuel) (st : St) (name tn : Bytes) (kind : Kind) (p : ProgType)
    (a : AttachType) (hp : p ≠ .structOps) (ht : TargetOf name p a tn kind) :
    (resolve k tn kind = none → ∃ st', loadWithTarget w name p a fuel st = some (.error .notSupported, st')) ∧
    (∀ t m id, resolve k tn kind = some (t, m) → t.typeID = some id → ∃ h st', h.map (·.id) = m ∧ loadWithTarget w name p a fuel st = some (.ok ⟨id, h, none⟩, st')) := by
  have hn := (targetName_iff name p a tn kind).mpr ht
  obtain ⟨st', h⟩ := findInKernel_static hw tn kind fuel hf st
  refine ⟨fun hr => ?_, fun t m id hr hid => ?_⟩
  · rcases h with ⟨h1, h2⟩ | ⟨t, h, h1, h2⟩
    · refine ⟨st', ?_⟩
      unfold loadWithTarget attachTarget findProgramTarget
      rw [if_neg hp, hn]
      simp only [h2]
    · rw [hr] at h1; cases h1
  · rcases h with ⟨h1, h2⟩ | ⟨t', h, h1, h2⟩
    · rw [hr] at h1; cases h1
    · rw [hr] at h1
      cases h1
      refine ⟨h, close h st', rfl, ?_⟩
      unfold loadWithTarget attachTarget findProgramTarget
      rw [if_neg hp, hn]
      simp only [h2, hid]

theorem cut_spec (a m : Bytes) (h : 0x3a#8 ∉ a) : cut (a ++ 0x3a#8 :: m) = (a, m) := by
  induction a with
  | nil => simp [cut]
  | cons b bs ih =>
    rw [List.mem_cons, not_or] at h
    simp only [List.cons_append, cut, if_neg (Ne.symm h.1), ih h.2]

/-- **C76, struct_ops.** A struct_ops program "ops:member" attaches to the struct ops, and its expected attach type is the index of the member. -/
theorem structOps_right_target (w : World) (k : Kernel) (objs : List (Nat × Info)) (hw : Holds w k objs) (fuel : Nat) (hf : objs.length < fuel) (st : St) (ops member : Bytes) (hc : 0x3a#8 ∉ ops)
    (hm : member ≠ []) (a : AttachType) (t : Found) (m : Option Nat) (id i : Nat) (hr : resolve k ops .struct = some (t, m)) (hid : t.typeID = some id) (hi : t.members[i]? = some member)
    (hfirst : ∀ j, j < i → t.members[j]? ≠ some member) :
    ∃ h st', h.map (·.id) = m ∧ loadWithTarget w (ops ++ 0x3a#8 :: member) .structOps a fuel st = some (.ok ⟨id, h, some i⟩, st') := by
  have hidx : t.members.findIdx? (· = member) = some i := by
    rw [List.findIdx?_eq_some_iff_getElem]
    obtain ⟨h1, h2⟩ := List.getElem?_eq_some_iff.mp hi
    refine ⟨h1, by simp [h2], ?_⟩
    intro j hj
    have := hfirst j hj
    rw [List.getElem?_eq_getElem (by omega)] at this
    simpa using this
  have hso : ∀ s, ∃ h st', h.map (·.id) = m ∧ structOpsTarget w ops member fuel s = some (.ok ⟨id, h, some i⟩, st') := by
    intro s
    obtain ⟨st', h⟩ := findInKernel_static hw ops .struct fuel hf s
    rcases h with ⟨h1, _⟩ | ⟨t', h, h1, h2⟩
    · rw [hr] at h1; cases h1
    · rw [hr] at h1
      cases h1
      refine ⟨h, st', rfl, ?_⟩
      unfold structOpsTarget
      simp only [h2, hid, hidx]
  unfold loadWithTarget attachTarget
  simp only [if_true, cut_spec ops member hc, if_neg hm]
  have hfp : ∃ s, findProgramTarget w ops .structOps a fuel st = some (.error .unrecognized, s) ∨ ∃ x, findProgramTarget w ops .structOps a fuel st = some (.ok x, s) := by
    unfold findProgramTarget
    cases hn : targetName ops .structOps a with
    | none => exact ⟨st, Or.inl rfl⟩
    | some x =>
      obtain ⟨tn, kind⟩ := x
      have := (targetName_iff _ _ _ _ _).mp hn
      cases this
      obtain ⟨st', h⟩ := findInKernel_static hw ops .struct fuel hf st
      rcases h with ⟨h1, _⟩ | ⟨t', h, h1, h2⟩
      · rw [hr] at h1; cases h1
      · rw [hr] at h1
        cases h1
        refine ⟨st', Or.inr ⟨(h, id), ?_⟩⟩
        simp only [h2, hid]
  obtain ⟨s, hfp | ⟨x, hfp⟩⟩ := hfp
  · rw [hfp]
    obtain ⟨h, st', e1, e2⟩ := hso s
    exact ⟨h, close h st', e1, by simp only [e2]⟩
  · rw [hfp]
    obtain ⟨h, st', e1, e2⟩ := hso s
    exact ⟨h, close h st', e1, by simp only [e2]⟩

/-! ## handles that are not closed -/

/-- Nothing below `n` is closed by the iterator. -/
theorem nextLoop_keeps (w : World) (n : Nat) : ∀ (fuel id : Nat) (it : It) (st : St) (b : Bool) (it' : It) (st' : St), nextLoop w fuel id it st = some (b, it', st') → n ≤ st.opened →
    (∀ h, it.handle = some h → n ≤ h.n) → n ≤ st'.opened ∧ (∀ h, it'.handle = some h → n ≤ h.n) ∧ ∀ x, x < n → st'.closed.count x = st.closed.count x := by
  have hclose : ∀ (k : Option Handle) (s : St), (∀ h, k = some h → n ≤ h.n) → ∀ x, x < n → (close k s).closed.count x = s.closed.count x := by
    intro k s hk x hx
    cases k with
    | none => rfl
    | some h =>
      have := hk h rfl
      simp only [close, List.count_cons, beq_iff_eq]
      rw [if_neg (by omega)]; rfl
  have hopen : ∀ (k : Option Handle) (s : St), (close k s).opened = s.opened := by intro k s; cases k <;> rfl
  intro fuel
  induction fuel with
  | zero => intro id it st b it' st' h; cases h
  | succ fuel ih =>
    intro id it st b it' st' h hn hk
    rw [nextLoop] at h
    split at h
    · cases h; exact ⟨by rw [hopen]; exact hn, (by intro h e; cases e), fun x hx => hclose _ _ hk x hx⟩
    · cases h; exact ⟨by rw [hopen]; exact hn, (by intro h e; cases e), fun x hx => hclose _ _ hk x hx⟩
    · split at h
      · exact ih _ _ { st with clock := st.clock + 2 } _ _ _ h hn hk
      · cases h; exact ⟨by rw [hopen]; exact hn, (by intro h e; cases e), fun x hx => hclose _ _ hk x hx⟩
      · cases h
        refine ⟨by rw [hopen]; exact Nat.le_succ_of_le hn, ?_, fun x hx => hclose _ _ hk x hx⟩
        intro h e
        cases e
        exact hn

theorem findInModuleLoop_keeps (w : World) (name : Bytes) (kind : Kind) (n m : Nat) : ∀ (fuel : Nat) (it : It) (st : St) (r : Except Err (Found × Handle)) (st' : St),
    findInModuleLoop w name kind m fuel it st = some (r, st') → n ≤ st.opened → (∀ h, it.handle = some h → n ≤ h.n) →
    n ≤ st'.opened ∧ (∀ t h, r = .ok (t, h) → n ≤ h.n) ∧ ∀ x, x < n → st'.closed.count x = st.closed.count x := by
  intro fuel
  induction fuel with
  | zero => intro it st r st' h; cases h
  | succ fuel ih =>
    intro it st r st' h hn hk
    rw [findInModuleLoop] at h
    split at h
    · cases h
    · rename_i it1 st1 hx
      obtain ⟨h1, h2, h3⟩ := nextLoop_keeps w n m _ _ _ _ _ _ hx hn hk
      split at h <;> (cases h; exact ⟨h1, (by intro t h e; cases e), h3⟩)
    · rename_i it1 st1 hx
      obtain ⟨h1, h2, h3⟩ := nextLoop_keeps w n m _ _ _ _ _ _ hx hn hk
      split at h
      · cases h
      · rename_i y hy
        have rec' : ∀ r st', findInModuleLoop w name kind m fuel it1 { st1 with clock := st1.clock + 1 } = some (r, st') →
            n ≤ st'.opened ∧ (∀ t h, r = .ok (t, h) → n ≤ h.n) ∧ ∀ x, x < n → st'.closed.count x = st.closed.count x := by
          intro r st' h
          obtain ⟨g1, g2, g3⟩ := ih _ _ _ _ h h1 h2
          exact ⟨g1, g2, fun x hx => by rw [g3 x hx]; exact h3 x hx⟩
        split at h
        · cases h; exact ⟨h1, (by intro t h e; cases e), h3⟩
        · split at h
          · split at h
            · cases h; exact ⟨h1, (by intro t h e; cases e), h3⟩
            · split at h
              · exact rec' _ _ h
              · cases h; exact ⟨h1, (by intro t h e; cases e), h3⟩
              · cases h
                refine ⟨h1, ?_, h3⟩
                intro t h e
                cases e
                exact h2 _ hy
          · exact rec' _ _ h

theorem findInKernel_keeps (w : World) (name : Bytes) (kind : Kind) (n fuel : Nat) (st st' : St) (r : Except Err (Found × Option Handle)) (h : findInKernel w name kind fuel st = some (r, st'))
    (hn : n ≤ st.opened) : n ≤ st'.opened ∧ (∀ t x, r = .ok (t, some x) → n ≤ x.n) ∧ ∀ x, x < n → st'.closed.count x = st.closed.count x := by
  have h0 : ∀ h : Handle, (none : Option Handle) = some h → n ≤ h.n := by intro h e; cases e
  unfold findInKernel at h
  split at h
  · cases h; exact ⟨hn, (by intro t x e; cases e), fun _ _ => rfl⟩
  · split at h
    · cases h; exact ⟨hn, (by intro t x e; cases e), fun _ _ => rfl⟩
    · split at h
      · cases h
      · rename_i t y st1 he
        cases h
        obtain ⟨g1, g2, g3⟩ := findInModuleLoop_keeps w name kind n fuel fuel _ _ _ _ he hn h0
        refine ⟨g1, ?_, g3⟩
        intro t x e
        cases e
        exact g2 _ _ rfl
      · rename_i st1 he
        cases h
        obtain ⟨g1, _, g3⟩ := findInModuleLoop_keeps w name kind n fuel fuel _ _ _ _ he hn h0
        exact ⟨g1, (by intro t x e; cases e), g3⟩
      · rename_i e st1 hne he
        cases h
        obtain ⟨g1, _, g3⟩ := findInModuleLoop_keeps w name kind n fuel fuel _ _ _ _ he hn h0
        exact ⟨g1, (by intro t x e; cases e), g3⟩
    · cases h; exact ⟨hn, (by intro t x e; cases e), fun _ _ => rfl⟩

/-- **C76 fails for struct_ops programs of modules.** Whenever the struct is found in a module, the handle of the first of the two lookups is never closed, however loading ends. -/
theorem structOps_leaks (w : World) (k : Kernel) (objs : List (Nat × Info)) (hw : Holds w k objs) (hread : Readable w) (fuel : Nat) (hf : objs.length < fuel) (st st' : St) (hb : Balanced st none)
    (ops member : Bytes) (hc : 0x3a#8 ∉ ops) (hm : member ≠ []) (t : Found) (id modID : Nat) (hr : resolve k ops .struct = some (t, some modID)) (hid : t.typeID = some id) (r : Except Err Target)
    (h : loadWithTarget w (ops ++ 0x3a#8 :: member) .structOps .structOps fuel st = some (r, st')) : ∃ x, x < st'.opened ∧ st'.closed.count x = 0 := by
  obtain ⟨st1, hk⟩ := findInKernel_static hw ops .struct fuel hf st
  rcases hk with ⟨h1, _⟩ | ⟨t', hd, h1, h2⟩
  · rw [hr] at h1; cases h1
  · rw [hr] at h1
    injection h1 with h1
    injection h1 with e1 e2
    subst e1
    cases hd with
    | none => cases e2
    | some y =>
      have hB := findInKernel_balanced w _ _ fuel hread _ _ _ h2 hb
      simp only [Except.toOption, Option.bind_some] at hB
      have hlt : y.n < st1.opened := (hB y.n).1 rfl
      have hz : st1.closed.count y.n = 0 := by rw [(hB y.n).2]; simp
      have hfp : findProgramTarget w ops .structOps .structOps fuel st = some (.ok (some y, id), st1) := by
        unfold findProgramTarget targetName
        simp only [h2, hid]
      unfold loadWithTarget attachTarget at h
      simp only [if_true, cut_spec ops member hc, if_neg hm, hfp] at h
      refine ⟨y.n, ?_⟩
      unfold structOpsTarget at h
      cases hk2 : findInKernel w ops .struct fuel st1 with
      | none => rw [hk2] at h; cases h
      | some z =>
        obtain ⟨z, st2⟩ := z
        obtain ⟨g1, g2, g3⟩ := findInKernel_keeps w ops .struct st1.opened fuel st1 st2 z hk2 (Nat.le_refl _)
        have hz2 : st2.closed.count y.n = 0 := by rw [g3 _ hlt]; exact hz
        have hdone : y.n < st2.opened ∧ st2.closed.count y.n = 0 := ⟨by omega, hz2⟩
        rw [hk2] at h
        cases z with
        | error e => cases h; exact hdone
        | ok z =>
          obtain ⟨t2, hd2⟩ := z
          simp only at h
          cases hi2 : t2.typeID with
          | none => rw [hi2] at h; cases h; exact hdone
          | some id2 =>
            simp only [hi2] at h
            cases hm2 : t2.members.findIdx? (· = member) with
            | none => simp only [hm2] at h; cases h; exact hdone
            | some i =>
              simp only [hm2] at h
              cases h
              cases hd2 with
              | none => exact hdone
              | some q =>
                have := g2 _ _ rfl
                refine ⟨hdone.1, ?_⟩
                simp only [close, List.count_cons, beq_iff_eq]
                rw [if_neg (by omega), hz2]

/-! ## concrete cases -/

/-- A kernel with vmlinux (1), BTF of a program (3) and two modules (4, 7) of which the second has struct "o" with member "m", and both function "f". -/
def exObjs : List (Nat × Info) := [(1, ⟨vmlinux, true⟩), (3, ⟨[], false⟩), (4, ⟨[1#8], true⟩), (7, ⟨[2#8], true⟩)]
/-- Its function "f". -/
def exF (id : Nat) : Found := ⟨some id, []⟩
/-- Its types. -/
def exKernel : Kernel where
  core := fun n k => if n = [0x67#8] ∧ k = .func then some (exF 10) else none
  modules := [(4, ⟨[1#8], true⟩, fun n k => if n = [0x66#8] ∧ k = .func then some (exF 20) else none),
    (7, ⟨[2#8], true⟩, fun n k => if n = [0x66#8] ∧ k = .func then some (exF 30) else if n = [0x6f#8] ∧ k = .struct then some ⟨some 31, [[0x6e#8], [0x6d#8]]⟩ else none)]
/-- The world. -/
def exWorld : World where
  nextId := fun _ i => match exObjs.find? (fun o => i < o.1) with
    | some o => .ok o.1
    | none => .error .notExist
  openId := fun _ _ => .ok ()
  info := fun _ i => match exObjs.find? (fun o => o.1 = i) with
    | some o => .ok o.2
    | none => .ok ⟨[], false⟩
  kernel := .ok (answer exKernel.core)
  module := fun n => match exKernel.modules.find? (fun m => m.2.1.name = n) with
    | some m => .ok (answer m.2.2)
    | none => .ok (answer fun _ _ => none)

theorem exHolds : Holds exWorld exKernel exObjs where
  static := {
    sorted := by decide
    positive := by decide
    nextId := fun _ _ => rfl
    openId := fun _ _ _ => rfl
    info := by
      intro t o ho
      simp only [exObjs, List.mem_cons, List.not_mem_nil, or_false] at ho
      rcases ho with rfl | rfl | rfl | rfl <;> rfl }
  kernel := rfl
  modules := by decide
  types := by
    intro m hm
    simp only [exKernel, List.mem_cons, List.not_mem_nil, or_false] at hm
    rcases hm with rfl | rfl <;> rfl

theorem exReadable : Readable exWorld where
  info := by intro t i e; simp only [exWorld]; split <;> simp
  module := by intro n e; simp only [exWorld]; split <;> simp
  lookup := by
    intro n types h name kind e he
    simp only [exWorld] at h
    have : ∀ f : Bytes → Kind → Option Found, answer f name kind = .error e → e = .notFound := by
      intro f hf
      unfold answer at hf
      split at hf
      · cases hf
      · cases hf; rfl
    split at h <;> (cases h; exact this _ he)

theorem exBalanced : Balanced ⟨0, 0, []⟩ none := by
  intro h
  exact ⟨(by intro e; cases e), by simp⟩

/-- fentry "f" attaches to type 20 of module 4; "g" to type 10 of the kernel; the struct_ops program "o:m" to type 31 of module 7. -/
example : resolve exKernel [0x66#8] .func = some (exF 20, some 4) ∧ resolve exKernel [0x67#8] .func = some (exF 10, none) ∧ (∃ t, resolve exKernel [0x6f#8] .struct = some (t, some 7) ∧ t.typeID = some 31) :=
  ⟨rfl, rfl, _, rfl, rfl⟩

/-- The theorems apply. -/
example : ∃ h st', h.map (·.id) = some 4 ∧ loadWithTarget exWorld [0x66#8] .tracing .fentry 9 ⟨0, 0, []⟩ = some (.ok ⟨20, h, none⟩, st') :=
  (attach_right_target exWorld exKernel exObjs exHolds 9 (by decide) ⟨0, 0, []⟩ [0x66#8] [0x66#8] .func .tracing .fentry (by decide) .fentry).2 (exF 20) (some 4) 20 rfl rfl

/-- The leak, concretely: eight handles are opened, seven closed. -/
example : ∃ r st', loadWithTarget exWorld [0x6f#8, 0x3a#8, 0x6d#8] .structOps .structOps 9 ⟨0, 0, []⟩ = some (r, st') ∧ r = .ok ⟨31, some ⟨7, 7⟩, some 1⟩ ∧ st'.opened = 8 ∧ st'.closed = [7, 6, 5, 4, 2, 1, 0] :=
  ⟨_, _, rfl, rfl, rfl, rfl⟩

/-- **C76 fails if the kernel does not describe a handle.** FindHandle returns the error and leaves the handle open, since its deferred Close was bound to the nil handle. -/
theorem findHandle_leaks : ∃ st', findHandle { exWorld with info := fun _ _ => .error .perm } (fun _ => true) 9 ⟨0, 0, []⟩ = some (.error .perm, st') ∧ st'.opened = 1 ∧ st'.closed = [] :=
  ⟨_, rfl, rfl, rfl⟩

/-- **C76 fails if a module's BTF cannot be read.** -/
theorem module_leaks : ∃ st', loadWithTarget { exWorld with module := fun _ => .error (.other 0) } [0x66#8] .tracing .fentry 9 ⟨0, 0, []⟩ = some (.error (.other 0), st') ∧
    st'.opened = 3 ∧ st'.closed = [1, 0] := ⟨_, rfl, rfl, rfl⟩

/-- **C76**: a program that doesn't attach to a type of the kernel is loaded without a target, and nothing is looked up. -/
theorem no_target (w : World) (fuel : Nat) (st : St) (attachTo : Bytes) (p : ProgType) (a : AttachType) (hp : p ≠ .structOps) (h : ∀ tn kind, ¬ TargetOf attachTo p a tn kind) :
    attachTarget w attachTo p a fuel st = some (.ok ⟨0, none, none⟩, st) ∧ loadWithTarget w attachTo p a fuel st = some (.ok ⟨0, none, none⟩, st) := by
  have hn : targetName attachTo p a = none := by
    cases hc : targetName attachTo p a with
    | none => rfl
    | some x => exact (h x.1 x.2 ((targetName_iff attachTo p a x.1 x.2).mp hc)).elim
  have h1 : attachTarget w attachTo p a fuel st = some (.ok ⟨0, none, none⟩, st) := by
    simp only [attachTarget, if_neg hp, findProgramTarget, hn]
  exact ⟨h1, by simp only [loadWithTarget, h1, close]⟩

example : attachTarget exWorld [0x66#8] .tracing .lsmMac 9 ⟨0, 0, []⟩ = some (.ok ⟨0, none, none⟩, ⟨0, 0, []⟩) := rfl

end Ebpf.AttachTarget
