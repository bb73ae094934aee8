import Verif.Model.KeepAlive
/-!
# C93: the collector never closes a descriptor that is about to be used

The specification of executions is in Spec/KeepAlive. This file decides, for
every function of the model, which descriptors it protects.
-/
namespace Ebpf.KeepAlive

section General
variable {R : Type} [DecidableEq R]

/-- Decides `UsedLater`. -/
def live : Body R → R → Bool
  | .ret ks, r => decide (r ∈ ks)
  | .use rs k, r => decide (r ∈ rs) || live k r
  | .call _ k, r => live k r
  | .branch a b, r => live a r || live b r

theorem usedLater_iff (b : Body R) (r : R) : UsedLater r b ↔ live b r = true := by
  constructor
  · intro h
    induction h with
    | ret ks h => simp [live, h]
    | here rs k h => simp [live, h]
    | later b k m _ ih => cases m <;> simp [live, ih]
  · induction b with
    | ret ks => intro h; exact .ret _ (by simpa [live] using h)
    | use rs k ih =>
      intro h
      simp only [live, Bool.or_eq_true, decide_eq_true_eq] at h
      rcases h with h | h
      · exact .here _ _ h
      · exact .later _ _ (.use _ _) (ih h)
    | call ds k ih => intro h; exact .later _ _ (.call _ _) (ih (by simpa [live] using h))
    | branch a b iha ihb =>
      intro h
      simp only [live, Bool.or_eq_true] at h
      rcases h with h | h
      · exact .later _ _ (.left _ _) (iha h)
      · exact .later _ _ (.right _ _) (ihb h)

/-- The function goes from `b` to `c` in some number of its own steps. -/
inductive Reaches : Body R → Body R → Prop
  | refl (b) : Reaches b b
  | tail (a b c) : Reaches a b → Moves b c → Reaches a c

omit [DecidableEq R] in
theorem Reaches.head {a b c : Body R} (m : Moves a b) (h : Reaches b c) : Reaches a c := by
  induction h with
  | refl => exact .tail _ _ _ (.refl _) m
  | tail x y _ m' ih => exact .tail _ _ _ ih m'

/-- At some call with the number of `d`, nothing refers to `d` any more. -/
def ExposedAt (points : R → R → Bool) (held : R → Bool) (b : Body R) (d : R) : Prop :=
  ∃ ds k, Reaches b (.call ds k) ∧ d ∈ ds ∧
    ∀ r, points r d = true → ¬ UsedLater r (Body.call ds k) ∧ held r = false

omit [DecidableEq R] in
theorem steps_reaches {points : R → R → Bool} {held : R → Bool} {w : World R} {s t : State R}
    (h : Steps points held w s t) : Reaches s.body t.body := by
  induction h with
  | refl => exact .refl _
  | tail t u _ st ih =>
    cases st with
    | run k m => exact .tail _ _ _ ih m
    | collect => exact ih
    | reopen => exact ih
    | close => exact ih

omit [DecidableEq R] in
/-- What holds throughout an execution: a collected descriptor has no user, and
a descriptor that was not collected is open. -/
theorem steps_inv {points : R → R → Bool} {held : R → Bool} {w : World R} {b : Body R}
    {s t : State R} (hs : Starts w b s) (h : Steps points held w s t) :
    (∀ d, t.gone d → ∀ r, points r d = true → ¬ UsedLater r t.body ∧ held r = false) ∧
    (∀ d, ¬ t.gone d → t.table (w.num d) = some (w.file d)) := by
  induction h with
  | refl => exact ⟨fun d hd => (hs.fresh d hd).elim, fun d _ => hs.opened d⟩
  | tail t u _ st ih =>
    obtain ⟨h1, h2⟩ := ih
    cases st with
    | run k m =>
      exact ⟨fun d hd r hr => ⟨fun hu => (h1 d hd r hr).1 (.later _ _ m hu), (h1 d hd r hr).2⟩, h2⟩
    | collect c hc hr =>
      refine ⟨fun d hd r hp => ?_, fun d hd => ?_⟩
      · rcases hd with rfl | hd
        · exact hr r hp
        · exact h1 d hd r hp
      · have hne : d ≠ c := fun e => hd (Or.inl e)
        have hg : ¬ t.gone d := fun g => hd (Or.inr g)
        have hn : w.num d ≠ w.num c := fun e => hne (hs.inj _ _ e)
        simp only [put, hn, if_false]
        exact h2 d hg
    | reopen n f hn =>
      refine ⟨h1, fun d hd => ?_⟩
      have := h2 d hd
      by_cases e : w.num d = n
      · rw [← e, this] at hn; cases hn
      · simp only [put, e, if_false]; exact this
    | close n hn =>
      refine ⟨h1, fun d hd => ?_⟩
      simp only [put, hn d hd, if_false]
      exact h2 d hd

omit [DecidableEq R] in
theorem hands_right {points : R → R → Bool} {held : R → Bool} {b : Body R} {d : R} {w : World R}
    {f : Option Nat} (hx : ¬ ExposedAt points held b d) (h : Hands points held b d w f) :
    f = some (w.file d) := by
  obtain ⟨s, t, ds, k, hs, st, hb, hd, ht⟩ := h
  obtain ⟨h1, h2⟩ := steps_inv hs st
  have hr := steps_reaches st
  rw [hs.body, hb] at hr
  rw [← ht]
  apply h2
  intro hg
  refine hx ⟨ds, k, hr, hd, fun r hp => ?_⟩
  have := h1 d hg r hp
  rwa [hb] at this

omit [DecidableEq R] in
theorem run_to {points : R → R → Bool} {held : R → Bool} {w : World R} {s : State R} {c : Body R}
    (h : Reaches s.body c) : Steps points held w s { s with body := c } := by
  generalize hb : s.body = b at h
  induction h with
  | refl => rw [← hb]; exact .refl _
  | tail x y _ m ih => exact .tail _ _ _ ih (.run { s with body := x } y m)

omit [DecidableEq R] in
theorem steps_append {points : R → R → Bool} {held : R → Bool} {w : World R} {s t u : State R}
    (h1 : Steps points held w s t) (h2 : Steps points held w t u) : Steps points held w s u := by
  induction h2 with
  | refl => exact h1
  | tail x y _ st ih => exact .tail _ _ _ ih st

omit [DecidableEq R] in
/-- An exposed descriptor number can stand for any file, or for none, by the
time the kernel looks at it. -/
theorem hands_any {points : R → R → Bool} {held : R → Bool} {b : Body R} {d : R} {w : World R}
    (hx : ExposedAt points held b d) (f : Option Nat) (s : State R) (hs : Starts w b s) :
    Hands points held b d w f := by
  obtain ⟨ds, k, hr, hd, hu⟩ := hx
  rw [← hs.body] at hr
  have s1 : Steps points held w s _ := run_to hr
  have s2 := Steps.tail _ _ _ s1 (.collect _ d (hs.fresh d) hu)
  cases f with
  | none =>
    refine ⟨s, _, ds, k, hs, s2, rfl, hd, ?_⟩
    simp [put]
  | some f =>
    refine ⟨s, _, ds, k, hs, .tail _ _ _ s2 (.reopen _ (w.num d) f (by simp [put])), rfl, hd, ?_⟩
    simp [put]

/-- Decides `ExposedAt`, with `refs` listing all references. -/
def exposedB (points : R → R → Bool) (held : R → Bool) (refs : List R) : Body R → R → Bool
  | .ret _, _ => false
  | .use _ k, d => exposedB points held refs k d
  | .call ds k, d =>
    (decide (d ∈ ds) && refs.all fun r => !points r d || (!live k r && !held r)) ||
      exposedB points held refs k d
  | .branch a b, d => exposedB points held refs a d || exposedB points held refs b d

omit [DecidableEq R] in
theorem exposed_head {points : R → R → Bool} {held : R → Bool} {a b : Body R} {d : R}
    (m : Moves a b) (h : ExposedAt points held b d) : ExposedAt points held a d := by
  obtain ⟨ds, k, hr, h⟩ := h
  exact ⟨ds, k, hr.head m, h⟩

omit [DecidableEq R] in
theorem reaches_cases {b c : Body R} (h : Reaches b c) : b = c ∨ ∃ x, Moves b x ∧ Reaches x c := by
  induction h with
  | refl => exact .inl rfl
  | tail y z _ m ih =>
    rcases ih with rfl | ⟨x, m', hr⟩
    · exact .inr ⟨_, m, .refl _⟩
    · exact .inr ⟨x, m', .tail _ _ _ hr m⟩

theorem exposedAt_iff {points : R → R → Bool} {held : R → Bool} {refs : List R}
    (hall : ∀ r, r ∈ refs) (b : Body R) (d : R) :
    ExposedAt points held b d ↔ exposedB points held refs b d = true := by
  have hcall : ∀ ds k, (∀ r, points r d = true → ¬ UsedLater r (Body.call ds k) ∧ held r = false) ↔
      (refs.all fun r => !points r d || (!live k r && !held r)) = true := by
    intro ds k
    simp only [List.all_eq_true, usedLater_iff, live]
    constructor
    · intro h r _
      cases hp : points r d
      · simp
      · have := h r hp; simp [this]
    · intro h r hp
      have := h r (hall r)
      simp only [hp, Bool.not_true, Bool.false_or, Bool.and_eq_true, Bool.not_eq_true'] at this
      simp [this]
  induction b with
  | ret ks =>
    refine ⟨fun ⟨ds, k, hr, _⟩ => ?_, fun h => by simp [exposedB] at h⟩
    rcases reaches_cases hr with e | ⟨x, m, _⟩
    · cases e
    · cases m
  | use rs k ih =>
    refine Iff.trans ?_ ih
    refine ⟨fun ⟨ds, k', hr, h⟩ => ?_, exposed_head (.use _ _)⟩
    rcases reaches_cases hr with e | ⟨x, m, hr⟩
    · cases e
    · cases m; exact ⟨ds, k', hr, h⟩
  | call ds k ih =>
    simp only [exposedB, Bool.or_eq_true, Bool.and_eq_true, decide_eq_true_eq]
    refine Iff.trans ?_ (or_congr (and_congr Iff.rfl (hcall ds k)) ih)
    constructor
    · rintro ⟨ds', k', hr, hd, h⟩
      rcases reaches_cases hr with e | ⟨x, m, hr⟩
      · cases e; exact .inl ⟨hd, h⟩
      · cases m; exact .inr ⟨ds', k', hr, hd, h⟩
    · rintro (⟨hd, h⟩ | h)
      · exact ⟨ds, k, .refl _, hd, h⟩
      · exact exposed_head (.call _ _) h
  | branch a b iha ihb =>
    simp only [exposedB, Bool.or_eq_true]
    refine Iff.trans ?_ (or_congr iha ihb)
    constructor
    · rintro ⟨ds, k, hr, h⟩
      rcases reaches_cases hr with e | ⟨x, m, hr⟩
      · cases e
      · cases m
        · exact .inl ⟨ds, k, hr, h⟩
        · exact .inr ⟨ds, k, hr, h⟩
    · rintro (h | h)
      · exact exposed_head (.left _ _) h
      · exact exposed_head (.right _ _) h

end General

theorem mem_allRefs (r : Ref) : r ∈ allRefs := by cases r <;> decide

/-- A process: object number `i` of `allRefs` has descriptor `i + 3`. -/
def exampleWorld : World Ref :=
  { num := fun r => allRefs.idxOf r + 3, file := fun r => allRefs.idxOf r + 100 }

/-- The execution starts in `exampleWorld`. -/
def exampleState (b : B) : State Ref :=
  { body := b
    table := fun n => if 3 ≤ n ∧ n < 3 + allRefs.length then some (n + 97) else none
    gone := fun _ => False }

theorem example_starts (b : B) : Starts exampleWorld b (exampleState b) where
  body := rfl
  opened d := by cases d <;> rfl
  fresh _ h := h
  inj d e h := by
    have : ∀ d e : Ref, exampleWorld.num d = exampleWorld.num e → d = e := by
      intro d e; cases d <;> cases e <;> decide
    exact this d e h

theorem neverWrong_iff (held : Ref → Bool) (b : B) :
    NeverWrong points held b ↔ ∀ d, exposedB points held allRefs b d = false := by
  constructor
  · intro h d
    cases hx : exposedB points held allRefs b d
    · rfl
    · exfalso
      have hx := (exposedAt_iff mem_allRefs b d).mpr hx
      have := h d exampleWorld none
        (hands_any hx none _ (example_starts b))
      cases this
  · intro h d w f hh
    refine hands_right (fun hx => ?_) hh
    rw [exposedAt_iff mem_allRefs, h d] at hx
    cases hx

/-! ## The claims -/

/-- If the caller keeps using the objects it passed until the function has
returned, every descriptor number the function hands to the kernel stands for
the object it was taken from, whatever the collector and other threads do.
This includes the descriptors the function makes itself, which the caller
cannot hold. -/
theorem caller_holds_never_wrong (a : Api) : NeverWrong points isArgument (body a) := by
  rw [neverWrong_iff]
  intro d
  cases a <;> cases d <;> decide

/-- These functions are safe even if the call is the last use of the objects
passed to them. -/
theorem last_use_never_wrong_partial (a : Api)
    (h : a ∈ [.mapLookup, .mapLookupPerCPU, .mapLookupAndDelete, .mapLookupAndDeletePerCPU,
      .mapBatchLookupPerCPU, .mapMemory, .mapClone, .mapPin,
      .newMap, .newProgram, .populateStructOps,
      .progRun, .progInfo, .progStats, .progClone, .progPin,
      .linkInfo, .linkPin, .attachCgroup, .cgroupClose, .cgroupUpdate,
      .attachTCX, .attachNetkit, .newPerfReader, .perfResume]) :
    NeverWrong points (fun _ => false) (body a) := by
  rw [neverWrong_iff]
  intro d
  cases a <;> first | (exact absurd h (by decide)) | (cases d <;> decide)

/-- All the other functions are not: these are exactly the descriptors which the
collector may close under the function, if the call is the last use of the
object. -/
theorem last_use_exposed_iff (a : Api) (d : Ref) :
    (∀ w : World Ref, (∃ s, Starts w (body a) s) → ∀ f, Hands points (fun _ => false) (body a) d w f) ↔
    (a, d) ∈ [(Api.mapLookupBytes, Ref.map), (.mapUpdate, .map), (.mapUpdate, .value),
      (.mapDelete, .map), (.mapNextKey, .map), (.mapBatchLookup, .map), (.mapBatchUpdate, .map),
      (.mapBatchDelete, .map), (.mapFreeze, .map), (.mapInfo, .map),
      (.progBindMap, .prog), (.progBindMap, .map),
      (.rawAttachProgram, .anchor), (.rawDetachProgram, .prog), (.rawDetachProgram, .anchor),
      (.linkUpdateArgs, .link), (.linkUpdateArgs, .newProg), (.linkUpdateArgs, .oldProg),
      (.linkDetach, .link), (.attachIter, .prog), (.attachIter, .map), (.iterOpen, .link),
      (.attachFreplace, .prog), (.attachFreplace, .target), (.attachTracing, .prog),
      (.attachRawTracepoint, .prog), (.attachRawLink, .prog), (.kprobeMulti, .prog),
      (.uprobeMulti, .prog), (.attachNetfilter, .prog), (.attachStructOps, .map),
      (.kprobeLink, .prog), (.kprobeIoctl, .prog), (.attachSocketFilter, .prog),
      (.newRingbufReader, .map)] := by
  have key : (∀ w : World Ref, (∃ s, Starts w (body a) s) →
        ∀ f, Hands points (fun _ => false) (body a) d w f) ↔
      exposedB points (fun _ => false) allRefs (body a) d = true := by
    rw [← exposedAt_iff mem_allRefs]
    constructor
    · intro h
      apply Classical.byContradiction
      intro hx
      have := hands_right hx (h exampleWorld ⟨_, example_starts _⟩ none)
      cases this
    · rintro hx w ⟨s, hs⟩ f
      exact hands_any hx f s hs
  rw [key]
  cases a <;> cases d <;> decide

/-- Holding on to the cursor of a batch lookup is enough to protect its map. -/
theorem cursor_protects_map :
    NeverWrong points (fun r => r == .cursor) (body .mapBatchLookup) := by
  rw [neverWrong_iff]
  intro d
  cases d <;> decide

/-- The hypotheses are met: a process in which a program is attached relative to
another one. Its first system call sees the right files, and the second
statement shows the anchor replaced by another file. -/
theorem keepalive_example :
    Hands points isArgument (body .rawAttachProgram) .anchor exampleWorld
      (some (exampleWorld.file .anchor)) ∧
    Hands points (fun _ => false) (body .rawAttachProgram) .anchor exampleWorld (some 7) := by
  constructor
  · exact ⟨_, _, [.prog, .anchor], _, example_starts _,
      run_to (c := .call [.prog, .anchor] (.branch fin (.use [.prog] fin)))
        (.tail _ _ _ (.tail _ _ _ (.refl _) (.use _ _)) (.use _ _)), rfl, by decide, by decide⟩
  · refine hands_any ?_ _ _ (example_starts _)
    rw [exposedAt_iff mem_allRefs]
    decide

end Ebpf.KeepAlive
