import Verif.Spec.Feature
/-! # C42: feature probes under concurrency -/
namespace Ebpf.Feature
open Ebpf.Spec.Feature

/-- What is true of goroutine `t` at program counter `p`. -/
def TOk (done : Bool) (result : Ret) (log : List Ev) (t : Nat) (p : PC) : Prop :=
  match p with
  | .idle | .entered | .rlocked => True
  | .peeked d r | .unlocked d r => if d then done = true ∧ r = result else knownAtCall t log = none
  | .wlocked => knownAtCall t log = none
  | .running => knownAtCall t log = none ∧ done = false
  | .leaving r | .returning r =>
    (done = true ∧ r = result) ∨
      ∃ e, r = .probeError e ∧ ownProbe t log = some (.inconclusive e) ∧ knownAtCall t log = none

/-- The property of the log: probes start only when nothing is known and no probe is active;
every call returns what was concluded, or its own inconclusive error if nothing was known. -/
def LogOk : List Ev → Prop
  | [] => True
  | .start _ :: l => concluded l = none ∧ active l = 0 ∧ LogOk l
  | .ret t r :: l =>
    ((∀ a, knownAtCall t l = some a → r = a) ∧
      (concluded l = some r ∨ ∃ e, r = .probeError e ∧ ownProbe t l = some (.inconclusive e))) ∧ LogOk l
  | _ :: l => LogOk l

structure Inv (s : State) : Prop where
  known : concluded s.log = if s.done then some s.result else none
  res : s.done = false → s.result = .nil
  excl : ∀ t u, (s.pc t).writer = true → u ≠ t → (s.pc u).writer = false ∧ (s.pc u).reader = false
  thr : ∀ t, TOk s.done s.result s.log t (s.pc t)
  act1 : ∀ t, s.pc t = .running → active s.log = 1
  act0 : (∀ t, s.pc t ≠ .running) → active s.log = 0
  cnt : conclusions s.log = if s.done then 1 else 0
  ok : LogOk s.log

theorem set_self (pc : Nat → PC) (t : Nat) (p : PC) : set pc t p t = p := by simp [set]
theorem set_ne (pc : Nat → PC) (t u : Nat) (p : PC) (h : u ≠ t) : set pc t p u = pc u := by simp [set, h]

/-- What is known at a call is what is concluded later. -/
theorem known_mono (t : Nat) (l : List Ev) (a : Ret) (h : knownAtCall t l = some a) (hc : conclusions l ≤ 1) :
    concluded l = some a := by
  induction l with
  | nil => cases h
  | cons e l ih =>
    cases e with
    | call u =>
      simp only [knownAtCall] at h
      simp only [concluded, conclusions] at *
      split at h
      · exact h
      · exact ih h hc
    | start u => exact ih h hc
    | fin u o =>
      simp only [knownAtCall] at h
      simp only [concluded, conclusions] at *
      have h1 := ih h (by omega)
      cases ho : answer o with
      | none => rw [h1]; rfl
      | some b =>
        have : conclusions l = 0 := by rw [ho] at hc; simp at hc; omega
        have : concluded l = none := by
          clear h h1 ih hc ho
          induction l with
          | nil => rfl
          | cons e l ih =>
            cases e with
            | fin u o =>
              simp only [conclusions] at this
              simp only [concluded]
              cases ho : answer o with
              | none => rw [ih (by omega)]; rfl
              | some b => rw [ho] at this; simp at this
            | call u => exact ih this
            | start u => exact ih this
            | ret u r => exact ih this
        rw [this] at h1; cases h1
    | ret u r => exact ih h hc

/-- A step of `t` which logs `es` and changes only the shared fields keeps the facts about the others. -/
theorem TOk_other (done : Bool) (result : Ret) (log : List Ev) (u : Nat) (p : PC) (e : Ev)
    (he : match e with | .call t | .start t | .fin t _ | .ret t _ => u ≠ t)
    (h : TOk done result log u p) : TOk done result (e :: log) u p := by
  have h1 : knownAtCall u (e :: log) = knownAtCall u log := by
    cases e with
    | call t => simp only at he; rw [knownAtCall, if_neg (fun h => he h.symm)]
    | _ => rfl
  have h2 : ownProbe u (e :: log) = ownProbe u log := by
    cases e with
    | call t => simp only at he; rw [ownProbe, if_neg (fun h => he h.symm)]
    | fin t o => simp only at he; rw [ownProbe, if_neg (fun h => he h.symm)]
    | _ => rfl
  cases p <;> simp only [TOk, h1, h2] at * <;> exact h

/-- Facts about a non-writer survive when the probe concludes. -/
theorem TOk_concl (result result' : Ret) (log : List Ev) (u : Nat) (p : PC)
    (hp : p.writer = false) (h : TOk false result log u p) : TOk true result' log u p := by
  cases p <;> simp only [TOk, PC.writer, Bool.true_eq_false, Bool.false_eq_true, false_and, false_or] at * <;>
    try exact h
  · split at h
    · exact absurd h id
    · simp_all
  · split at h
    · exact absurd h id
    · simp_all
  · right; exact h

theorem inv_init : Inv init := by
  constructor <;> simp [init, concluded, conclusions, active, LogOk, TOk, PC.writer]

theorem excl_of_reader (s : State) (h : Inv s) (t : Nat) (ht : (s.pc t).reader = true) :
    ∀ u, (s.pc u).writer = false := by
  intro u
  cases hu : (s.pc u).writer with
  | false => rfl
  | true =>
    by_cases htu : t = u
    · subst htu
      cases hp : s.pc t <;> rw [hp] at ht hu <;> simp [PC.reader, PC.writer] at ht hu
    · have := (h.excl u t hu htu).2
      rw [ht] at this; cases this

/-- Exclusion is kept when the new pc of `t` is neither reader nor writer, or `t` already was one. -/
theorem excl_set (s : State) (h : Inv s) (t : Nat) (p : PC)
    (hp : (p.writer = true → ∀ u, u ≠ t → (s.pc u).writer = false ∧ (s.pc u).reader = false) ∧
      (p.reader = true → ∀ u, u ≠ t → (s.pc u).writer = false)) :
    ∀ a b, (set s.pc t p a).writer = true → b ≠ a → (set s.pc t p b).writer = false ∧ (set s.pc t p b).reader = false := by
  intro a b ha hb
  by_cases hat : a = t
  · subst hat
    rw [set_self] at ha
    rw [set_ne _ _ _ _ hb]; exact hp.1 ha b hb
  · rw [set_ne _ _ _ _ hat] at ha
    by_cases hbt : b = t
    · subst hbt
      rw [set_self]
      constructor
      · cases hw : p.writer with
        | false => rfl
        | true => have := (hp.1 hw a hat).1; rw [ha] at this; cases this
      · cases hr : p.reader with
        | false => rfl
        | true => have := hp.2 hr a hat; rw [ha] at this; cases this
    · rw [set_ne _ _ _ _ hbt]; exact h.excl a b ha hb

theorem act_set_nonrunning (s : State) (h : Inv s) (t : Nat) (p : PC) (hp : p ≠ .running) (ht : s.pc t ≠ .running) :
    (∀ u, set s.pc t p u = .running → active s.log = 1) ∧ ((∀ u, set s.pc t p u ≠ .running) → active s.log = 0) := by
  constructor
  · intro u hu
    by_cases hut : u = t
    · subst hut; rw [set_self] at hu; exact absurd hu hp
    · rw [set_ne _ _ _ _ hut] at hu; exact h.act1 u hu
  · intro hall
    apply h.act0
    intro u
    by_cases hut : u = t
    · subst hut; exact ht
    · have := hall u; rwa [set_ne _ _ _ _ hut] at this

theorem thr_set (done : Bool) (result : Ret) (log : List Ev) (pc : Nat → PC) (t : Nat) (p : PC)
    (hp : TOk done result log t p) (ho : ∀ u, u ≠ t → TOk done result log u (pc u)) :
    ∀ u, TOk done result log u (set pc t p u) := by
  intro u
  by_cases hut : u = t
  · subst hut; rw [set_self]; exact hp
  · rw [set_ne _ _ _ _ hut]; exact ho u hut

theorem inv_step (s s' : State) (h : Inv s) (hs : Step true s s') : Inv s' := by
  cases hs with
  | call t hp =>
    obtain ⟨a1, a0⟩ := act_set_nonrunning s h t .entered (by simp) (by rw [hp]; simp)
    exact ⟨h.known, h.res, excl_set s h t _ (by simp [PC.writer, PC.reader]),
      thr_set _ _ _ _ _ _ trivial (fun u hu => TOk_other _ _ _ _ _ _ hu (h.thr u)), a1, a0, h.cnt, h.ok⟩
  | rlock t hp hw =>
    obtain ⟨a1, a0⟩ := act_set_nonrunning s h t .rlocked (by simp) (by rw [hp]; simp)
    exact ⟨h.known, h.res, excl_set s h t _ ⟨fun hr => by simp [PC.writer] at hr, fun _ u _ => hw u⟩,
      thr_set _ _ _ _ _ _ trivial (fun u _ => h.thr u), a1, a0, h.cnt, h.ok⟩
  | peek t hp =>
    obtain ⟨a1, a0⟩ := act_set_nonrunning s h t (.peeked s.done s.result) (by simp) (by rw [hp]; simp)
    have hr := excl_of_reader s h t (by rw [hp]; rfl)
    refine ⟨h.known, h.res, excl_set s h t _ ⟨fun hr => by simp [PC.writer] at hr, fun _ u _ => hr u⟩,
      thr_set _ _ _ _ _ _ ?_ (fun u _ => h.thr u), a1, a0, h.cnt, h.ok⟩
    simp only [TOk]
    cases hd : s.done with
    | true => simp
    | false =>
      simp only [Bool.false_eq_true, if_false]
      cases hk : knownAtCall t s.log with
      | none => rfl
      | some a =>
        have h1 := h.cnt; rw [hd] at h1
        have h2 := known_mono t s.log a hk (by simp at h1; omega)
        have h3 := h.known; rw [hd] at h3; rw [h2] at h3; simp at h3
  | runlock t d r hp =>
    obtain ⟨a1, a0⟩ := act_set_nonrunning s h t (.unlocked d r) (by simp) (by rw [hp]; simp)
    have ht := h.thr t; rw [hp] at ht
    exact ⟨h.known, h.res, excl_set s h t _ (by simp [PC.writer, PC.reader]),
      thr_set _ _ _ _ _ _ ht (fun u _ => h.thr u), a1, a0, h.cnt, h.ok⟩
  | hit t r hp =>
    obtain ⟨a1, a0⟩ := act_set_nonrunning s h t (.returning r) (by simp) (by rw [hp]; simp)
    have ht := h.thr t; rw [hp] at ht
    exact ⟨h.known, h.res, excl_set s h t _ (by simp [PC.writer, PC.reader]),
      thr_set _ _ _ _ _ _ (by simpa [TOk] using Or.inl ht) (fun u _ => h.thr u), a1, a0, h.cnt, h.ok⟩
  | lock t r hp hl =>
    obtain ⟨a1, a0⟩ := act_set_nonrunning s h t .wlocked (by simp) (by rw [hp]; simp)
    have ht := h.thr t; rw [hp] at ht
    exact ⟨h.known, h.res, excl_set s h t _ ⟨fun _ u _ => hl u, fun hr => by simp [PC.reader] at hr⟩,
      thr_set _ _ _ _ _ _ (by simpa [TOk] using ht) (fun u _ => h.thr u), a1, a0, h.cnt, h.ok⟩
  | recheckHit t hp hd =>
    obtain ⟨a1, a0⟩ := act_set_nonrunning s h t (.leaving s.result) (by simp) (by rw [hp]; simp)
    exact ⟨h.known, h.res, excl_set s h t _ ⟨fun _ u hu => h.excl t u (by rw [hp]; rfl) hu, fun hr => by simp [PC.reader] at hr⟩,
      thr_set _ _ _ _ _ _ (Or.inl ⟨hd, rfl⟩) (fun u _ => h.thr u), a1, a0, h.cnt, h.ok⟩
  | start t hp hd =>
    have hw : (s.pc t).writer = true := by rw [hp]; rfl
    have hact : active s.log = 0 := h.act0 (fun u hu => by
      by_cases hut : u = t
      · subst hut; rw [hp] at hu; cases hu
      · have := (h.excl t u hw hut).1; rw [hu] at this; cases this)
    have hk := h.known; rw [hd] at hk
    have ht := h.thr t; rw [hp] at ht
    refine ⟨h.known, h.res, excl_set s h t _ ⟨fun _ u hu => h.excl t u hw hu, fun hr => by simp [PC.reader] at hr⟩,
      thr_set _ _ _ _ _ _ ⟨ht, hd⟩ (fun u hu => TOk_other _ _ _ _ _ _ hu (h.thr u)), ?_, ?_, h.cnt,
      ⟨by simpa using hk, hact, h.ok⟩⟩
    · intro _ _; simp [active, hact]
    · intro hall; exact absurd (set_self _ _ _) (hall t)
  | finSupported t hp =>
    have hw : (s.pc t).writer = true := by rw [hp]; rfl
    have ht := h.thr t; rw [hp] at ht
    have hd : s.done = false := ht.2
    have hact := h.act1 t hp
    have hnr : ∀ u, set s.pc t (.leaving .nil) u ≠ .running := by
      intro u hu
      by_cases hut : u = t
      · subst hut; rw [set_self] at hu; cases hu
      · rw [set_ne _ _ _ _ hut] at hu
        have := (h.excl t u hw hut).1; rw [hu] at this; cases this
    refine ⟨?_, by simp, excl_set s h t _ ⟨fun _ u hu => h.excl t u hw hu, fun hr => by simp [PC.reader] at hr⟩,
      thr_set _ _ _ _ _ _ (Or.inl ⟨rfl, (h.res hd).symm⟩) (fun u hu => ?_), ?_, ?_, ?_, h.ok⟩
    · simp [concluded, answer, h.res hd]
    · apply TOk_other _ _ _ _ _ _ hu
      have := h.thr u; rw [hd] at this
      exact TOk_concl _ _ _ _ _ (h.excl t u hw hu).1 this
    · intro u hu; exact absurd hu (hnr u)
    · intro _; simp [active, hact]
    · have := h.cnt; rw [hd] at this; simp [conclusions, answer] at *; exact this
  | finUnsupported t hp =>
    have hw : (s.pc t).writer = true := by rw [hp]; rfl
    have ht := h.thr t; rw [hp] at ht
    have hd : s.done = false := ht.2
    have hact := h.act1 t hp
    have hnr : ∀ u, set s.pc t (.leaving .notSupported) u ≠ .running := by
      intro u hu
      by_cases hut : u = t
      · subst hut; rw [set_self] at hu; cases hu
      · rw [set_ne _ _ _ _ hut] at hu
        have := (h.excl t u hw hut).1; rw [hu] at this; cases this
    simp only [if_true]
    refine ⟨?_, by simp, excl_set s h t _ ⟨fun _ u hu => h.excl t u hw hu, fun hr => by simp [PC.reader] at hr⟩,
      thr_set _ _ _ _ _ _ (Or.inl ⟨rfl, rfl⟩) (fun u hu => ?_), ?_, ?_, ?_, h.ok⟩
    · simp [concluded, answer]
    · apply TOk_other _ _ _ _ _ _ hu
      have := h.thr u; rw [hd] at this
      exact TOk_concl _ _ _ _ _ (h.excl t u hw hu).1 this
    · intro u hu; exact absurd hu (hnr u)
    · intro _; simp [active, hact]
    · have := h.cnt; rw [hd] at this; simp [conclusions, answer] at *; exact this
  | finInconclusive t e hp =>
    have hw : (s.pc t).writer = true := by rw [hp]; rfl
    have ht := h.thr t; rw [hp] at ht
    have hd : s.done = false := ht.2
    have hact := h.act1 t hp
    have hnr : ∀ u, set s.pc t (.leaving (.probeError e)) u ≠ .running := by
      intro u hu
      by_cases hut : u = t
      · subst hut; rw [set_self] at hu; cases hu
      · rw [set_ne _ _ _ _ hut] at hu
        have := (h.excl t u hw hut).1; rw [hu] at this; cases this
    refine ⟨?_, h.res, excl_set s h t _ ⟨fun _ u hu => h.excl t u hw hu, fun hr => by simp [PC.reader] at hr⟩,
      thr_set _ _ _ _ _ _ (Or.inr ⟨e, rfl, by simp [ownProbe], ht.1⟩) (fun u hu => TOk_other _ _ _ _ _ _ hu (h.thr u)),
      ?_, ?_, ?_, h.ok⟩
    · simp [concluded, answer, h.known]
    · intro u hu; exact absurd hu (hnr u)
    · intro _; simp [active, hact]
    · simpa [conclusions, answer] using h.cnt
  | unlock t r hp =>
    obtain ⟨a1, a0⟩ := act_set_nonrunning s h t (.returning r) (by simp) (by rw [hp]; simp)
    have ht := h.thr t; rw [hp] at ht
    exact ⟨h.known, h.res, excl_set s h t _ (by simp [PC.writer, PC.reader]),
      thr_set _ _ _ _ _ _ ht (fun u _ => h.thr u), a1, a0, h.cnt, h.ok⟩
  | ret t r hp =>
    obtain ⟨a1, a0⟩ := act_set_nonrunning s h t .idle (by simp) (by rw [hp]; simp)
    have ht := h.thr t; rw [hp] at ht
    refine ⟨h.known, h.res, excl_set s h t _ (by simp [PC.writer, PC.reader]),
      thr_set _ _ _ _ _ _ trivial (fun u hu => TOk_other _ _ _ _ _ _ hu (h.thr u)), a1, a0, h.cnt, ⟨⟨?_, ?_⟩, h.ok⟩⟩
    · intro a ha
      have h1 := known_mono t s.log a ha (by rw [h.cnt]; split <;> omega)
      rcases ht with ⟨h2, h3⟩ | ⟨e, h2, h3, h4⟩
      · have := h.known; rw [h2, h1] at this; simp at this; rw [h3, this]
      · rw [h4] at ha; cases ha
    · rcases ht with ⟨h2, h3⟩ | ⟨e, h2, h3, h4⟩
      · left; rw [h.known, h2, h3]; rfl
      · exact Or.inr ⟨e, h2, h3⟩

theorem reach_inv (s : State) (h : Reach true s) : Inv s := by
  induction h with
  | init => exact inv_init
  | step s s' _ hs ih => exact inv_step s s' ih hs

theorem LogOk_suffix (l1 l2 : List Ev) (h : LogOk (l1 ++ l2)) : LogOk l2 := by
  induction l1 with
  | nil => exact h
  | cons e l1 ih =>
    apply ih
    cases e with
    | call t => exact h
    | start t => exact h.2.2
    | fin t o => exact h
    | ret t r => exact h.2

/-- **C42**, part 1: at any time at most one caller is inside the probe, and a probe is started
only if no probe is active and none was conclusive before. -/
theorem probe_exclusive (s : State) (h : Reach true s) :
    0 ≤ active s.log ∧ active s.log ≤ 1 ∧
    ∀ l1 l2 t, s.log = l1 ++ .start t :: l2 → active l2 = 0 ∧ concluded l2 = none := by
  have hi := reach_inv s h
  refine ⟨?_, ?_, ?_⟩
  · by_cases hr : ∃ t, s.pc t = .running
    · obtain ⟨t, ht⟩ := hr; rw [hi.act1 t ht]; decide
    · rw [hi.act0 (fun t ht => hr ⟨t, ht⟩)]; decide
  · by_cases hr : ∃ t, s.pc t = .running
    · obtain ⟨t, ht⟩ := hr; rw [hi.act1 t ht]; decide
    · rw [hi.act0 (fun t ht => hr ⟨t, ht⟩)]; decide
  · intro l1 l2 t he
    have hok := hi.ok
    rw [he] at hok
    have := LogOk_suffix l1 _ hok
    exact ⟨this.2.1, this.1⟩

/-- **C42**, part 2: a conclusive result is computed at most once, in any interleaving of any number
of callers. -/
theorem conclusive_once (s : State) (h : Reach true s) : conclusions s.log ≤ 1 := by
  rw [(reach_inv s h).cnt]; split <;> omega

/-- **C42**, part 3: whatever a call returns is the concluded answer or the inconclusive error of the
probe this very call ran; a call made after a conclusion returns that conclusion. So inconclusive
errors are never cached and conclusive ones always are. -/
theorem returns_cached (s : State) (h : Reach true s) (l1 l2 : List Ev) (t : Nat) (r : Ret)
    (he : s.log = l1 ++ .ret t r :: l2) :
    (∀ a, knownAtCall t l2 = some a → r = a) ∧
    (concluded l2 = some r ∨ ∃ e, r = .probeError e ∧ ownProbe t l2 = some (.inconclusive e)) := by
  have hok := (reach_inv s h).ok
  rw [he] at hok
  exact (LogOk_suffix l1 _ hok).1

/-- Without a parseable version string an `unsupported` outcome is not cached (feature.go:139-142); this is
excluded above by `verOk = true`. -/
theorem bad_version_not_cached (s : State) (t : Nat) (h : s.pc t = .running) (hd : s.done = false) :
    ∃ s', Step false s s' ∧ s'.done = false ∧ s'.pc t = .leaving .badVersion :=
  ⟨_, .finUnsupported s t h, by simpa using hd, by simp [set]⟩

/-! Non-vacuity: a complete call is reachable. -/

example : ∃ s, Reach true s ∧ s.log = [.ret 0 .nil, .fin 0 .supported, .start 0, .call 0] := by
  have r1 := Reach.step (verOk := true) _ _ .init (.call init 0 rfl)
  have r2 := Reach.step _ _ r1 (.rlock _ 0 rfl (by intro u; by_cases h : u = 0 <;> simp [init, set, h, PC.writer]))
  have r3 := Reach.step _ _ r2 (.peek _ 0 rfl)
  have r4 := Reach.step _ _ r3 (.runlock _ 0 false .nil rfl)
  have r5 := Reach.step _ _ r4 (.lock _ 0 .nil rfl
    (by intro u; by_cases h : u = 0 <;> simp [init, set, h, PC.writer, PC.reader]))
  have r6 := Reach.step _ _ r5 (.start _ 0 rfl rfl)
  have r7 := Reach.step _ _ r6 (.finSupported _ 0 rfl)
  have r8 := Reach.step _ _ r7 (.unlock _ 0 .nil rfl)
  have r9 := Reach.step _ _ r8 (.ret _ 0 .nil rfl)
  exact ⟨_, r9, rfl⟩

/-- A log with a race is accepted by the specification functions. -/
example : concluded [.ret 1 .nil, .fin 1 .supported, .start 1, .ret 0 (.probeError 5),
      .fin 0 (.inconclusive 5), .start 0, .call 1, .call 0] = some .nil ∧
    LogOk [.ret 1 .nil, .fin 1 .supported, .start 1, .ret 0 (.probeError 5),
      .fin 0 (.inconclusive 5), .start 0, .call 1, .call 0] ∧
    ¬ LogOk [.ret 0 (.probeError 5), .call 0, .fin 1 .supported, .start 1, .call 1] := by
  simp [concluded, LogOk, answer, active, knownAtCall, ownProbe]

end Ebpf.Feature
