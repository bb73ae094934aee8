import Verif.Spec.Poller
/-!
# C79: Close and Flush wake waiting readers, and nothing is used after it was closed
-/
namespace Ebpf.Poller
open Ebpf.PollerSpec

/-- Holding epollMu. -/
def holdsEpoll : Pc → Bool
  | .wait1 _ => true
  | .wait2 _ => true
  | .wait3 _ => true
  | .close3 => true
  | .close4 => true
  | .add1 _ => true
  | _ => false

/-- Holding eventMu. -/
def holdsEvent : Pc → Bool
  | .close1 => true
  | .close4 => true
  | .flush1 => true
  | _ => false

/-- Past the write to the close event. -/
def woke : Pc → Bool
  | .close2 => true
  | .close3 => true
  | .close4 => true
  | .closeDone _ => true
  | _ => false

/-- What a goroutine knows. -/
def Local (s : Shared) : Pc → Prop
  | .wait2 _ => s.epoll = true
  | .wait3 l => s.epoll = true ∧ (Ev.flush ∈ l → 0 < s.flushCnt) ∧ l.Nodup ∧ (Ev.close ∈ l → 0 < s.closeCnt) ∧ ∀ id, Ev.data id ∈ l → id ∈ s.added
  | _ => True

/-- The invariant. -/
structure Inv (st : St) : Prop where
  epollMu : ∀ (i : Nat) (pc : Pc), st.threads[i]? = some pc → (holdsEpoll pc = true ↔ st.shared.epollMu = some i)
  eventMu : ∀ (i : Nat) (pc : Pc), st.threads[i]? = some pc → (holdsEvent pc = true ↔ st.shared.eventMu = some i)
  epollIn : ∀ i, st.shared.epollMu = some i → i < st.threads.length
  eventIn : ∀ i, st.shared.eventMu = some i → i < st.threads.length
  same : st.shared.closeEv = st.shared.epoll ∧ st.shared.flushEv = st.shared.epoll
  know : ∀ (i : Nat) (pc : Pc), st.threads[i]? = some pc → Local st.shared pc
  awake : ∀ (i : Nat) (pc : Pc), st.threads[i]? = some pc → woke pc = true → 0 < st.shared.closeCnt ∨ st.shared.epoll = false
  count : st.shared.closes = if st.shared.epoll then (0, 0, 0) else (1, 1, 1)
  good : st.shared.bad = false

theorem scan_count : ∀ (l : List Ev), (scan l).2.2 ≤ l.count .flush
  | [] => Nat.le_refl _
  | .close :: es => Nat.zero_le _
  | .flush :: es => by
    show (scan es).2.2 + 1 ≤ _
    rw [List.count_cons_self]
    exact Nat.succ_le_succ (scan_count es)
  | .data id :: es => by
    show (scan es).2.2 ≤ _
    rw [List.count_cons_of_ne (by simp)]
    exact scan_count es

theorem scan_flush {l : List Ev} (h : (scan l).2.2 ≠ 0) : Ev.flush ∈ l := by
  have := scan_count l
  exact List.count_pos_iff.mp (by omega)

theorem scan_one {l : List Ev} (h : l.Nodup) : (scan l).2.2 ≤ 1 := by
  have h1 := scan_count l
  have h2 : l.count .flush ≤ 1 := List.nodup_iff_count.mp h _
  omega

/-- The threads after a step. -/
theorem get_set {ts : List Pc} {i j : Nat} {pc q : Pc} (h : (ts.set i pc)[j]? = some q) : (j = i ∧ q = pc) ∨ (j ≠ i ∧ ts[j]? = some q) := by
  by_cases e : i = j
  · subst e
    left
    rw [List.getElem?_set_self'] at h
    cases ht : ts[i]? with
    | none => rw [ht] at h; cases h
    | some x => rw [ht] at h; exact ⟨rfl, (Option.some.inj h).symm⟩
  · right
    rw [List.getElem?_set_ne e] at h
    exact ⟨fun x => e x.symm, h⟩

theorem inv_init : Inv ⟨fresh, []⟩ where
  epollMu i pc h := by cases h
  eventMu i pc h := by cases h
  epollIn i h := by cases h
  eventIn i h := by cases h
  same := ⟨rfl, rfl⟩
  know i pc h := by cases h
  awake i pc h := by cases h
  count := rfl
  good := rfl

theorem inv_start {s : Shared} {ts : List Pc} (h : Inv ⟨s, ts⟩) {pc : Pc} (hp : (∃ d, pc = .wait0 d) ∨ pc = .close0 ∨ pc = .flush0 ∨ ∃ id, pc = .add0 id) : Inv ⟨s, ts ++ [pc]⟩ := by
  have hnew : holdsEpoll pc = false ∧ holdsEvent pc = false ∧ woke pc = false ∧ Local s pc := by
    rcases hp with ⟨d, rfl⟩ | rfl | rfl | ⟨id, rfl⟩ <;> exact ⟨rfl, rfl, rfl, trivial⟩
  obtain ⟨n1, n2, n3, n4⟩ := hnew
  have hget : ∀ (i : Nat) (q : Pc), (ts ++ [pc])[i]? = some q → ts[i]? = some q ∨ (i = ts.length ∧ q = pc) := by
    intro i q hq
    rcases Nat.lt_or_ge i ts.length with hl | hl
    · rw [List.getElem?_append_left hl] at hq; exact .inl hq
    · rw [List.getElem?_append_right hl] at hq
      by_cases e : i - ts.length = 0
      · rw [e] at hq
        exact .inr ⟨by omega, (Option.some.inj hq).symm⟩
      · rw [List.getElem?_eq_none (by simp; omega)] at hq; cases hq
  refine ⟨fun i q hq => ?_, fun i q hq => ?_, fun i hi => ?_, fun i hi => ?_, h.same, fun i q hq => ?_, fun i q hq => ?_, h.count, h.good⟩
  · rcases hget i q hq with hq | ⟨rfl, rfl⟩
    · exact h.epollMu i q hq
    · rw [n1]
      refine ⟨(fun x => by cases x), fun hx => ?_⟩
      have := h.epollIn _ hx
      simp at this
  · rcases hget i q hq with hq | ⟨rfl, rfl⟩
    · exact h.eventMu i q hq
    · rw [n2]
      refine ⟨(fun x => by cases x), fun hx => ?_⟩
      have := h.eventIn _ hx
      simp at this
  · have : i < ts.length := h.epollIn i hi
    show i < (ts ++ [pc]).length
    rw [List.length_append]; omega
  · have : i < ts.length := h.eventIn i hi
    show i < (ts ++ [pc]).length
    rw [List.length_append]; omega
  · rcases hget i q hq with hq | ⟨rfl, rfl⟩
    · exact h.know i q hq
    · exact n4
  · rcases hget i q hq with hq | ⟨rfl, rfl⟩
    · exact h.awake i q hq
    · rw [n3]; intro x; cases x

/-- What one step of a goroutine must establish for the invariant. -/
theorem inv_set {s s' : Shared} {ts : List Pc} {i : Nat} {pc pc' : Pc} (h : Inv ⟨s, ts⟩) (hi : ts[i]? = some pc)
    (e1 : s'.epollMu = if holdsEpoll pc' then some i else if holdsEpoll pc then none else s.epollMu) (e1' : holdsEpoll pc' = true → holdsEpoll pc = false → s.epollMu = none)
    (e2 : s'.eventMu = if holdsEvent pc' then some i else if holdsEvent pc then none else s.eventMu) (e2' : holdsEvent pc' = true → holdsEvent pc = false → s.eventMu = none)
    (hsame : s'.closeEv = s'.epoll ∧ s'.flushEv = s'.epoll)
    (hl : Local s' pc') (hlo : ∀ (j : Nat) (q : Pc), j ≠ i → ts[j]? = some q → Local s q → Local s' q)
    (ha : woke pc' = true → 0 < s'.closeCnt ∨ s'.epoll = false) (hao : (0 < s.closeCnt ∨ s.epoll = false) → (0 < s'.closeCnt ∨ s'.epoll = false))
    (hc : s'.closes = if s'.epoll then (0, 0, 0) else (1, 1, 1)) (hg : s'.bad = false) : Inv ⟨s', ts.set i pc'⟩ := by
  have hlen : i < ts.length := (List.getElem?_eq_some_iff.mp hi).1
  have m1 := h.epollMu i pc hi
  have m2 := h.eventMu i pc hi
  have o1 : ∀ (j : Nat) (q : Pc), j ≠ i → ts[j]? = some q → (holdsEpoll q = true ↔ s'.epollMu = some j) := by
    intro j q hj hq
    rw [h.epollMu j q hq, e1]
    show s.epollMu = some j ↔ _
    change _ ↔ s.epollMu = some i at m1
    cases hp' : holdsEpoll pc' with
    | true =>
      simp only [if_true, Option.some.injEq]
      refine ⟨fun x => ?_, fun x => absurd x.symm hj⟩
      cases hp : holdsEpoll pc with
      | true => rw [m1.mp hp] at x; exact Option.some.inj x
      | false => rw [e1' hp' hp] at x; cases x
    | false =>
      simp only [Bool.false_eq_true, if_false]
      cases hp : holdsEpoll pc with
      | true =>
        rw [m1.mp hp]
        simp only [if_true]
        exact ⟨fun x => absurd (Option.some.inj x).symm hj, fun x => by cases x⟩
      | false => simp
  have o2 : ∀ (j : Nat) (q : Pc), j ≠ i → ts[j]? = some q → (holdsEvent q = true ↔ s'.eventMu = some j) := by
    intro j q hj hq
    rw [h.eventMu j q hq, e2]
    show s.eventMu = some j ↔ _
    change _ ↔ s.eventMu = some i at m2
    cases hp' : holdsEvent pc' with
    | true =>
      simp only [if_true, Option.some.injEq]
      refine ⟨fun x => ?_, fun x => absurd x.symm hj⟩
      cases hp : holdsEvent pc with
      | true => rw [m2.mp hp] at x; exact Option.some.inj x
      | false => rw [e2' hp' hp] at x; cases x
    | false =>
      simp only [Bool.false_eq_true, if_false]
      cases hp : holdsEvent pc with
      | true =>
        rw [m2.mp hp]
        simp only [if_true]
        exact ⟨fun x => absurd (Option.some.inj x).symm hj, fun x => by cases x⟩
      | false => simp
  have p1 : holdsEpoll pc' = true ↔ s'.epollMu = some i := by
    rw [e1]
    cases hp' : holdsEpoll pc' with
    | true => simp
    | false =>
      change _ ↔ s.epollMu = some i at m1
      cases hp : holdsEpoll pc with
      | true => simp
      | false =>
        simp only [Bool.false_eq_true, if_false, false_iff]
        intro x; rw [m1.mpr x] at hp; cases hp
  have p2 : holdsEvent pc' = true ↔ s'.eventMu = some i := by
    rw [e2]
    cases hp' : holdsEvent pc' with
    | true => simp
    | false =>
      change _ ↔ s.eventMu = some i at m2
      cases hp : holdsEvent pc with
      | true => simp
      | false =>
        simp only [Bool.false_eq_true, if_false, false_iff]
        intro x; rw [m2.mpr x] at hp; cases hp
  refine ⟨fun j q hq => ?_, fun j q hq => ?_, fun j hj => ?_, fun j hj => ?_, hsame, fun j q hq => ?_, fun j q hq => ?_, hc, hg⟩
  · rcases get_set hq with ⟨rfl, rfl⟩ | ⟨hne, hq⟩
    · exact p1
    · exact o1 j q hne hq
  · rcases get_set hq with ⟨rfl, rfl⟩ | ⟨hne, hq⟩
    · exact p2
    · exact o2 j q hne hq
  · show j < (ts.set i pc').length
    rw [List.length_set]
    change s'.epollMu = some j at hj
    rw [e1] at hj
    split at hj
    · cases hj; exact hlen
    · split at hj
      · cases hj
      · exact h.epollIn j hj
  · show j < (ts.set i pc').length
    rw [List.length_set]
    change s'.eventMu = some j at hj
    rw [e2] at hj
    split at hj
    · cases hj; exact hlen
    · split at hj
      · cases hj
      · exact h.eventIn j hj
  · rcases get_set hq with ⟨rfl, rfl⟩ | ⟨hne, hq⟩
    · exact hl
    · exact hlo j q hne hq (h.know j q hq)
  · rcases get_set hq with ⟨rfl, rfl⟩ | ⟨hne, hq⟩
    · exact ha
    · intro hw; exact hao (h.awake j q hq hw)

/-- Only one goroutine holds epollMu; nobody else knows anything about the descriptors. -/
theorem others_ignorant {s s' : Shared} {ts : List Pc} {i : Nat} {pc : Pc} (h : Inv ⟨s, ts⟩) (hi : ts[i]? = some pc) (hp : holdsEpoll pc = true) :
    ∀ (j : Nat) (q : Pc), j ≠ i → ts[j]? = some q → Local s q → Local s' q := by
  intro j q hj hq _
  have h1 : s.epollMu = some i := (h.epollMu i pc hi).mp hp
  have h2 : holdsEpoll q = false := by
    cases hh : holdsEpoll q with
    | false => rfl
    | true =>
      have : s.epollMu = some j := (h.epollMu j q hq).mp hh
      rw [h1] at this
      exact absurd (Option.some.inj this).symm hj
  cases q <;> first | trivial | cases h2

theorem local_mono {s s' : Shared} (h1 : s'.epoll = s.epoll) (h2 : s.flushCnt ≤ s'.flushCnt) (h3 : s.closeCnt ≤ s'.closeCnt) (h4 : ∀ x ∈ s.added, x ∈ s'.added) (q : Pc) (h : Local s q) : Local s' q := by
  cases q with
  | wait2 d => exact h1.trans h
  | wait3 l => exact ⟨h1.trans h.1, fun x => Nat.lt_of_lt_of_le (h.2.1 x) h2, h.2.2.1, fun x => Nat.lt_of_lt_of_le (h.2.2.2.1 x) h3, fun id x => h4 _ (h.2.2.2.2 id x)⟩
  | _ => trivial

theorem inv_act {s s' : Shared} {ts : List Pc} {i : Nat} {pc pc' : Pc} {a : Answer} (h : Inv ⟨s, ts⟩) (hi : ts[i]? = some pc) (hk : Kernel s a pc) (hr : act s i a pc = some (s', pc')) :
    Inv ⟨s', ts.set i pc'⟩ := by
  have hsame := h.same
  have hcount := h.count
  have hgood := h.good
  have hknow := h.know i pc hi
  simp only at hsame hcount hgood hknow
  have mono : ∀ (s' : Shared), s'.epoll = s.epoll → s.flushCnt ≤ s'.flushCnt → s.closeCnt ≤ s'.closeCnt → (∀ x ∈ s.added, x ∈ s'.added) → ∀ (j : Nat) (q : Pc), j ≠ i → ts[j]? = some q → Local s q → Local s' q :=
    fun s' h1 h2 h3 h4 j q _ _ hq => local_mono h1 h2 h3 h4 q hq
  cases pc with
  | wait0 d =>
    simp only [act] at hr
    split at hr
    · rename_i hm
      cases hr
      exact inv_set h hi rfl (fun _ _ => hm) rfl (by intro x; cases x) hsame trivial (mono _ rfl (Nat.le_refl _) (Nat.le_refl _) (fun _ x => x)) (by intro x; cases x) id hcount hgood
    · cases hr
  | wait1 d =>
    simp only [act] at hr
    split at hr
    · cases hr
      exact inv_set h hi rfl (by intro x; cases x) rfl (by intro x; cases x) hsame trivial (mono _ rfl (Nat.le_refl _) (Nat.le_refl _) (fun _ x => x)) (by intro x; cases x) id hcount hgood
    · rename_i hm
      cases hr
      have hm : s.epoll = true := by simpa using hm
      exact inv_set h hi ((h.epollMu i _ hi).mp rfl) (by intro _ x; cases x) rfl (by intro x; cases x) hsame hm (mono _ rfl (Nat.le_refl _) (Nat.le_refl _) (fun _ x => x)) (by intro x; cases x) id hcount hgood
  | wait2 d =>
    have he : s.epoll = true := hknow
    have hb : (s.bad || !s.epoll) = false := by rw [hgood, he]; rfl
    have hmu : s.epollMu = some i := (h.epollMu i _ hi).mp rfl
    cases a with
    | none => cases hr
    | eintr =>
      cases hr
      exact inv_set h hi hmu (by intro _ x; cases x) rfl (by intro x; cases x) hsame he (mono _ rfl (Nat.le_refl _) (Nat.le_refl _) (fun _ x => x)) (by intro x; cases x) id hcount hb
    | timeout =>
      cases hr
      exact inv_set h hi rfl (by intro x; cases x) rfl (by intro x; cases x) hsame trivial (mono _ rfl (Nat.le_refl _) (Nat.le_refl _) (fun _ x => x)) (by intro x; cases x) id hcount hb
    | err n =>
      cases hr
      exact inv_set h hi rfl (by intro x; cases x) rfl (by intro x; cases x) hsame trivial (mono _ rfl (Nat.le_refl _) (Nat.le_refl _) (fun _ x => x)) (by intro x; cases x) id hcount hb
    | events l =>
      cases hr
      obtain ⟨k1, k2, k3, k4, k5⟩ := hk
      exact inv_set h hi hmu (by intro _ x; cases x) rfl (by intro x; cases x) hsame ⟨he, k4, k2, k3, k5⟩ (mono _ rfl (Nat.le_refl _) (Nat.le_refl _) (fun _ x => x)) (by intro x; cases x) id hcount hb
  | wait3 l =>
    obtain ⟨he, hf, hn, _, _⟩ := hknow
    have hb : (s.bad || !s.closeEv || ((scan l).2.2 ≠ 0 && (!s.flushEv || s.flushCnt = 0)) || decide (1 < (scan l).2.2)) = false := by
      rw [hgood, hsame.1, hsame.2, he]
      have h1 := scan_one hn
      have h2 : ¬ 1 < (scan l).2.2 := by omega
      by_cases h0 : (scan l).2.2 = 0
      · simp [h0]
      · have h3 := hf (scan_flush h0)
        have h4 : s.flushCnt ≠ 0 := by omega
        simp [h2, h4]
    simp only [act, finishWait, Option.some.injEq] at hr
    have hoth : ∀ (s' : Shared), ∀ (j : Nat) (q : Pc), j ≠ i → ts[j]? = some q → Local s q → Local s' q := fun s' => others_ignorant h hi rfl
    split at hr
    · cases hr
      exact inv_set h hi rfl (by intro x; cases x) rfl (by intro x; cases x) hsame trivial (hoth _) (by intro x; cases x) id hcount hb
    · split at hr
      · cases hr
        exact inv_set h hi rfl (by intro x; cases x) rfl (by intro x; cases x) hsame trivial (hoth _) (by intro x; cases x) id hcount hb
      · cases hr
        exact inv_set h hi rfl (by intro x; cases x) rfl (by intro x; cases x) hsame trivial (hoth _) (by intro x; cases x) id hcount hb
  | waitDone l r => cases hr
  | close0 =>
    simp only [act] at hr
    split at hr
    · rename_i hm
      cases hr
      exact inv_set h hi rfl (by intro x; cases x) rfl (fun _ _ => hm) hsame trivial (mono _ rfl (Nat.le_refl _) (Nat.le_refl _) (fun _ x => x)) (by intro x; cases x) id hcount hgood
    · cases hr
  | close1 =>
    simp only [act] at hr
    split at hr
    · rename_i hc
      cases hr
      have he : s.epoll = false := by rw [← hsame.1]; exact hc
      exact inv_set h hi rfl (by intro x; cases x) rfl (by intro x; cases x) hsame trivial (mono _ rfl (Nat.le_refl _) (Nat.le_refl _) (fun _ x => x)) (fun _ => .inr he) id hcount hgood
    · cases hr
      exact inv_set h hi rfl (by intro x; cases x) rfl (by intro x; cases x) hsame trivial (mono _ rfl (Nat.le_refl _) (Nat.le_succ _) (fun _ x => x)) (fun _ => .inl (Nat.succ_pos _))
        (fun x => x.elim (fun y => .inl (Nat.lt_succ_of_lt y)) .inr) hcount hgood
  | close2 =>
    simp only [act] at hr
    split at hr
    · rename_i hm
      cases hr
      exact inv_set h hi rfl (fun _ _ => hm) rfl (by intro x; cases x) hsame trivial (mono _ rfl (Nat.le_refl _) (Nat.le_refl _) (fun _ x => x)) (fun _ => h.awake i _ hi rfl) id hcount hgood
    · cases hr
  | close3 =>
    simp only [act] at hr
    split at hr
    · rename_i hm
      cases hr
      exact inv_set h hi ((h.epollMu i _ hi).mp rfl) (by intro _ x; cases x) rfl (fun _ _ => hm) hsame trivial (mono _ rfl (Nat.le_refl _) (Nat.le_refl _) (fun _ x => x)) (fun _ => h.awake i _ hi rfl) id hcount hgood
    · cases hr
  | close4 =>
    cases hr
    refine inv_set h hi rfl (by intro x; cases x) rfl (by intro x; cases x) ⟨rfl, rfl⟩ trivial (others_ignorant h hi rfl) (fun _ => .inr rfl) (fun _ => .inr rfl) ?_ hgood
    show (_, _, _) = (1, 1, 1)
    rw [hcount, hsame.1, hsame.2]
    cases s.epoll <;> rfl
  | closeDone r => cases hr
  | flush0 =>
    simp only [act] at hr
    split at hr
    · rename_i hm
      cases hr
      exact inv_set h hi rfl (by intro x; cases x) rfl (fun _ _ => hm) hsame trivial (mono _ rfl (Nat.le_refl _) (Nat.le_refl _) (fun _ x => x)) (by intro x; cases x) id hcount hgood
    · cases hr
  | flush1 =>
    simp only [act] at hr
    split at hr
    · cases hr
      exact inv_set h hi rfl (by intro x; cases x) rfl (by intro x; cases x) hsame trivial (mono _ rfl (Nat.le_refl _) (Nat.le_refl _) (fun _ x => x)) (by intro x; cases x) id hcount hgood
    · cases hr
      exact inv_set h hi rfl (by intro x; cases x) rfl (by intro x; cases x) hsame trivial (mono _ rfl (Nat.le_succ _) (Nat.le_refl _) (fun _ x => x)) (by intro x; cases x) id hcount hgood
  | flushDone r => cases hr
  | add0 id' =>
    simp only [act] at hr
    split at hr
    · cases hr
      exact inv_set h hi rfl (by intro x; cases x) rfl (by intro x; cases x) hsame trivial (mono _ rfl (Nat.le_refl _) (Nat.le_refl _) (fun _ x => x)) (by intro x; cases x) id hcount hgood
    · split at hr
      · rename_i hm
        cases hr
        exact inv_set h hi rfl (fun _ _ => hm) rfl (by intro x; cases x) hsame trivial (mono _ rfl (Nat.le_refl _) (Nat.le_refl _) (fun _ x => x)) (by intro x; cases x) id hcount hgood
      · cases hr
  | add1 id' =>
    simp only [act] at hr
    split at hr
    · cases hr
      exact inv_set h hi rfl (by intro x; cases x) rfl (by intro x; cases x) hsame trivial (mono _ rfl (Nat.le_refl _) (Nat.le_refl _) (fun _ x => x)) (by intro x; cases x) id hcount hgood
    · split at hr
      · cases hr
        exact inv_set h hi rfl (by intro x; cases x) rfl (by intro x; cases x) hsame trivial (mono _ rfl (Nat.le_refl _) (Nat.le_refl _) (fun _ x => x)) (by intro x; cases x) id hcount hgood
      · cases hr
        exact inv_set h hi rfl (by intro x; cases x) rfl (by intro x; cases x) hsame trivial (mono _ rfl (Nat.le_refl _) (Nat.le_refl _) (fun _ x => List.mem_cons_of_mem _ x)) (by intro x; cases x) id hcount hgood
  | addDone id' r => cases hr

theorem inv {st : St} (h : Reachable st) : Inv st := by
  induction h with
  | init => exact inv_init
  | step _ hs ih =>
    cases hs with
    | run i pc a hi hk hr => exact inv_act ih hi hk hr
    | start pc hp => exact inv_start ih hp

/-- **C79, safety.** In every history, whatever the interleaving: no descriptor is used after it was closed, no eventfd is read while it would block, and the three descriptors are closed together and at most once. -/
theorem poller_safe {st : St} (h : Reachable st) :
    st.shared.bad = false ∧ st.shared.closes = (if st.shared.epoll then (0, 0, 0) else (1, 1, 1)) ∧ st.shared.closeEv = st.shared.epoll ∧ st.shared.flushEv = st.shared.epoll := by
  have := inv h
  exact ⟨this.good, this.count, this.same.1, this.same.2⟩

theorem eventMu_free {st : St} (h : Reachable st) (hstuck : Stuck st) : st.shared.eventMu = none := by
  have hI := inv h
  cases he : st.shared.eventMu with
  | none => rfl
  | some j =>
    have hj := hI.eventIn j he
    have hget : st.threads[j]? = some st.threads[j] := List.getElem?_eq_getElem hj
    have hh := (hI.eventMu j _ hget).mpr he
    have hb := hstuck j _ hget
    generalize st.threads[j] = q at hh hb
    cases q <;> first | cases hh | skip
    · have := hb .none; simp only [act] at this; split at this <;> cases this
    · have := hb .none; cases this
    · have := hb .none; simp only [act] at this; split at this <;> cases this

/-- Nobody is stuck while one of the eventfds is ready or the poller is closed. -/
theorem all_return {st : St} (h : Reachable st) (hstuck : Stuck st) (hwoke : (0 < st.shared.closeCnt ∨ st.shared.epoll = false) ∨ 0 < st.shared.flushCnt) :
    ∀ pc ∈ st.threads, returned pc = true := by
  have hI := inv h
  have hev := eventMu_free h hstuck
  have hep : st.shared.epollMu = none := by
    cases he : st.shared.epollMu with
    | none => rfl
    | some j =>
      have hj := hI.epollIn j he
      have hget : st.threads[j]? = some st.threads[j] := List.getElem?_eq_getElem hj
      have hh := (hI.epollMu j _ hget).mpr he
      have hb := hstuck j _ hget
      have hk := hI.know j _ hget
      generalize st.threads[j] = q at hh hb hk
      cases q <;> first | cases hh | skip
      · have := hb .none; simp only [act] at this; split at this <;> cases this
      · have h1 : st.shared.closeCnt = 0 := hb.1
        have h2 : st.shared.flushCnt = 0 := hb.2
        have h3 : st.shared.epoll = true := hk
        rcases hwoke with (hw | hw) | hw
        · omega
        · rw [h3] at hw; cases hw
        · omega
      · have := hb .none; cases this
      · have := hb .none; simp only [act, hev, if_true] at this; cases this
      · have := hb .none; cases this
      · have := hb .none
        simp only [act] at this
        split at this
        · cases this
        · cases this
  intro q hq
  obtain ⟨j, hj, hget⟩ := List.getElem_of_mem hq
  have hget : st.threads[j]? = some q := by rw [List.getElem?_eq_getElem hj, hget]
  have hb := hstuck j q hget
  have m1 := hI.epollMu j q hget
  have m2 := hI.eventMu j q hget
  rw [hep] at m1
  rw [hev] at m2
  cases q <;> first | rfl | (exfalso; have x := m1.mp rfl; cases x) | (exfalso; have x := m2.mp rfl; cases x) | skip
  · have := hb .none; simp only [act, hep, if_true] at this; cases this
  · have := hb .none; simp only [act, hev, if_true] at this; cases this
  · have := hb .none; simp only [act, hep, if_true] at this; cases this
  · have := hb .none; simp only [act, hev, if_true] at this; cases this
  · have := hb .none
    simp only [act, hep, if_true] at this
    split at this <;> cases this

/-- **C79, Close.** Once Close was called by anybody, no interleaving gets stuck before every call has returned: Close does not wait for ever for a reader, and readers do not wait for ever. -/
theorem close_unblocks {st : St} (h : Reachable st) {i : Nat} {pc : Pc} (hc : st.threads[i]? = some pc) (hcl : isClose pc = true) (hstuck : Stuck st) :
    ∀ pc ∈ st.threads, returned pc = true := by
  have hev := eventMu_free h hstuck
  refine all_return h hstuck (.inl ?_)
  by_cases hw : woke pc = true
  · exact (inv h).awake i pc hc hw
  · have hb := hstuck i pc hc
    cases pc <;> first | (exfalso; exact hw rfl) | (exfalso; revert hcl; exact Bool.false_ne_true) | skip
    · have := hb .none
      simp only [act, hev, if_true] at this
      cases this
    · have := hb .none
      simp only [act] at this
      split at this <;> cases this

/-- **C79, Flush.** The same holds while a flush is pending: it wakes a waiting reader. -/
theorem flush_unblocks {st : St} (h : Reachable st) (hf : 0 < st.shared.flushCnt) (hstuck : Stuck st) : ∀ pc ∈ st.threads, returned pc = true :=
  all_return h hstuck (.inr hf)

/-- How many steps a call still takes at most. -/
def rank : Pc → Nat
  | .wait0 _ => 4
  | .wait1 _ => 3
  | .wait2 _ => 2
  | .wait3 _ => 1
  | .close0 => 5
  | .close1 => 4
  | .close2 => 3
  | .close3 => 2
  | .close4 => 1
  | .flush0 => 2
  | .flush1 => 1
  | .add0 _ => 2
  | .add1 _ => 1
  | _ => 0

theorem act_rank {s s' : Shared} {i : Nat} {a : Answer} {pc pc' : Pc} (hr : act s i a pc = some (s', pc')) : rank pc' + (if pc' = pc then 0 else 1) ≤ rank pc := by
  have fin : ∀ l, finishWait s l = (s', pc') → rank pc' = 0 := by
    intro l hl
    simp only [finishWait] at hl
    split at hl
    · cases hl; rfl
    · split at hl <;> cases hl <;> rfl
  cases pc with
  | wait3 l =>
    simp only [act, Option.some.injEq] at hr
    rw [fin l hr]
    show 0 + _ ≤ 1
    split <;> omega
  | wait2 d => cases a <;> cases hr <;> simp [rank]
  | add1 id =>
    simp only [act] at hr
    split at hr
    · cases hr; simp [rank]
    · split at hr <;> cases hr <;> simp [rank]
  | add0 id =>
    simp only [act] at hr
    split at hr
    · cases hr; simp [rank]
    · split at hr <;> cases hr; simp [rank]
  | wait0 d => simp only [act] at hr; split at hr <;> cases hr; simp [rank]
  | wait1 d => simp only [act] at hr; split at hr <;> cases hr <;> simp [rank]
  | close0 => simp only [act] at hr; split at hr <;> cases hr; simp [rank]
  | close1 => simp only [act] at hr; split at hr <;> cases hr <;> simp [rank]
  | close2 => simp only [act] at hr; split at hr <;> cases hr; simp [rank]
  | close3 => simp only [act] at hr; split at hr <;> cases hr; simp [rank]
  | close4 => cases hr; simp [rank]
  | flush0 => simp only [act] at hr; split at hr <;> cases hr; simp [rank]
  | flush1 => simp only [act] at hr; split at hr <;> cases hr <;> simp [rank]
  | waitDone _ _ => cases hr
  | closeDone _ => cases hr
  | flushDone _ => cases hr
  | addDone _ _ => cases hr

theorem sum_set : ∀ (ts : List Pc) (i : Nat) (pc pc' : Pc), ts[i]? = some pc → ((ts.set i pc').map rank).sum + rank pc = (ts.map rank).sum + rank pc'
  | [], i, _, _, h => by cases h
  | x :: ts, 0, pc, pc', h => by
    cases h
    simp only [List.set_cons_zero, List.map_cons, List.sum_cons]
    omega
  | x :: ts, i + 1, pc, pc', h => by
    have := sum_set ts i pc pc' h
    simp only [List.set_cons_succ, List.map_cons, List.sum_cons]
    omega

theorem runs_rank {n : Nat} {st st' : St} (h : Runs n st st') : n + (st'.threads.map rank).sum ≤ (st.threads.map rank).sum := by
  induction h with
  | refl => omega
  | run i pc a _ hi hk hr ih =>
    have h1 := act_rank hr
    rename_i ts s' pc' _
    have h2 := sum_set ts i pc pc' hi
    simp only at ih ⊢
    omega

theorem sum_le : ∀ (ts : List Pc), (ts.map rank).sum ≤ 5 * ts.length
  | [] => by simp
  | x :: ts => by
    have := sum_le ts
    have hx : rank x ≤ 5 := by cases x <;> simp [rank]
    simp only [List.map_cons, List.sum_cons, List.length_cons]
    omega

/-- **C79, termination.** The calls that have been made take at most five steps each, not counting restarts of interrupted system calls. With `close_unblocks`: once Close was called, all of them return. -/
theorem calls_terminate {n : Nat} {st st' : St} (h : Runs n st st') : n ≤ 5 * st.threads.length := by
  have := runs_rank h
  have := sum_le st.threads
  omega

theorem scan_spec : ∀ (l : List Ev), (Ev.close ∈ l → (scan l).2.1 = true) ∧
    (Ev.close ∉ l → (scan l).2.1 = false ∧ (scan l).1 = l.filter (fun e => decide (e ≠ .flush)) ∧ ((scan l).2.2 ≠ 0 ↔ Ev.flush ∈ l))
  | [] => ⟨(by intro h; cases h), fun _ => ⟨rfl, rfl, by simp [scan]⟩⟩
  | .close :: es => ⟨fun _ => rfl, fun h => absurd List.mem_cons_self h⟩
  | .flush :: es => by
    obtain ⟨h1, h2⟩ := scan_spec es
    refine ⟨fun h => h1 (by simpa using h), fun h => ?_⟩
    obtain ⟨a, b, c⟩ := h2 (fun x => h (List.mem_cons_of_mem _ x))
    refine ⟨a, ?_, ?_⟩
    · simpa [scan] using b
    · simp [scan]
  | .data id :: es => by
    obtain ⟨h1, h2⟩ := scan_spec es
    refine ⟨fun h => h1 (by simpa using h), fun h => ?_⟩
    obtain ⟨a, b, c⟩ := h2 (fun x => h (List.mem_cons_of_mem _ x))
    refine ⟨a, ?_, ?_⟩
    · simp only [scan]
      rw [b]
      simp
    · simpa [scan] using c

/-- **C79, results.** Wait reports what the kernel reported, without the flush event: ErrClosed if the close event is among it, else ErrFlushed if the flush event is. -/
theorem wait_reports {s s' : Shared} {i : Nat} {a : Answer} {l : List Ev} {pc' : Pc} (h : act s i a (.wait3 l) = some (s', pc')) :
    (Ev.close ∈ l ∧ pc' = .waitDone [] .closed) ∨
    (Ev.close ∉ l ∧ pc' = .waitDone (l.filter (fun e => decide (e ≠ .flush))) (if Ev.flush ∈ l then .flushed else .ok)) := by
  obtain ⟨h1, h2⟩ := scan_spec l
  simp only [act, finishWait, Option.some.injEq] at h
  by_cases hc : Ev.close ∈ l
  · left
    rw [h1 hc] at h
    cases h
    exact ⟨hc, rfl⟩
  · right
    obtain ⟨a1, a2, a3⟩ := h2 hc
    rw [a1] at h
    simp only [Bool.false_eq_true, if_false] at h
    split at h
    · rename_i hf
      cases h
      rw [if_pos (a3.mp hf), a2]
      exact ⟨hc, rfl⟩
    · rename_i hf
      cases h
      rw [if_neg (fun x => hf (a3.mpr x)), a2]
      exact ⟨hc, rfl⟩

/-- **C79, results.** A flush is not lost: it stays pending until a Wait returns ErrFlushed, or ErrClosed. -/
theorem flush_kept {s s' : Shared} {ts ts' : List Pc} (hs : Step ⟨s, ts⟩ ⟨s', ts'⟩) (h1 : 0 < s.flushCnt) (h2 : s'.flushCnt = 0) :
    ∃ (i : Nat) (l : List Ev), ts'[i]? = some (.waitDone l .flushed) ∨ ts'[i]? = some (.waitDone l .closed) := by
  have hset : ∀ (i : Nat) (pc pc' : Pc), ts[i]? = some pc → (ts.set i pc')[i]? = some pc' := by
    intro i pc pc' hi
    rw [List.getElem?_set_self (List.getElem?_eq_some_iff.mp hi).1]
  cases hs with
  | start pc hp => omega
  | run i pc a hi hk hr =>
    rename_i pc'
    cases pc with
    | wait3 l =>
      simp only [act, finishWait, Option.some.injEq] at hr
      refine ⟨i, ?_⟩
      rw [hset i _ pc' hi]
      split at hr
      · cases hr; exact ⟨_, .inr rfl⟩
      · split at hr
        · cases hr; exact ⟨_, .inl rfl⟩
        · rename_i hz
          cases hr
          have : s.flushCnt = 0 := by simpa [hz] using h2
          omega
    | wait2 d => cases a <;> cases hr <;> exact absurd h2 (by first | omega | (simp only; omega))
    | add1 id =>
      simp only [act] at hr
      split at hr
      · cases hr; exact absurd h2 (by first | omega | (simp only; omega))
      · split at hr <;> cases hr <;> exact absurd h2 (by first | omega | (simp only; omega))
    | add0 id =>
      simp only [act] at hr
      split at hr
      · cases hr; exact absurd h2 (by first | omega | (simp only; omega))
      · split at hr <;> cases hr; exact absurd h2 (by first | omega | (simp only; omega))
    | wait0 d => simp only [act] at hr; split at hr <;> cases hr; exact absurd h2 (by first | omega | (simp only; omega))
    | wait1 d => simp only [act] at hr; split at hr <;> cases hr <;> exact absurd h2 (by first | omega | (simp only; omega))
    | close0 => simp only [act] at hr; split at hr <;> cases hr; exact absurd h2 (by first | omega | (simp only; omega))
    | close1 => simp only [act] at hr; split at hr <;> cases hr <;> exact absurd h2 (by first | omega | (simp only; omega))
    | close2 => simp only [act] at hr; split at hr <;> cases hr; exact absurd h2 (by first | omega | (simp only; omega))
    | close3 => simp only [act] at hr; split at hr <;> cases hr; exact absurd h2 (by first | omega | (simp only; omega))
    | close4 => cases hr; exact absurd h2 (by simp only [closeAll]; omega)
    | flush0 => simp only [act] at hr; split at hr <;> cases hr; exact absurd h2 (by first | omega | (simp only; omega))
    | flush1 => simp only [act] at hr; split at hr <;> cases hr <;> exact absurd h2 (by first | omega | (simp only; omega))
    | waitDone _ _ => cases hr
    | closeDone _ => cases hr
    | flushDone _ => cases hr
    | addDone _ _ => cases hr


/-- Calls made after closing, up to their result. -/
def late : Pc → Bool
  | .wait0 _ => true
  | .wait1 _ => true
  | .waitDone [] .closed => true
  | .close0 => true
  | .close1 => true
  | .closeDone .closed => true
  | .flush0 => true
  | .flush1 => true
  | .flushDone .closed => true
  | .add0 _ => true
  | .add1 _ => true
  | .addDone _ .closed => true
  | .addDone id .unsupported => decide (0x7fffffff < id)
  | _ => false

theorem act_closed {s s' : Shared} {i : Nat} {a : Answer} {pc pc' : Pc} (he : s.epoll = false) (hc : s.closeEv = false) (hf : s.flushEv = false) (hr : act s i a pc = some (s', pc')) :
    s'.epoll = false ∧ (late pc = true → late pc' = true) := by
  cases pc with
  | wait3 l =>
    refine ⟨?_, (by intro h; cases h)⟩
    simp only [act, finishWait, Option.some.injEq] at hr
    split at hr
    · cases hr; exact he
    · split at hr <;> cases hr <;> exact he
  | wait2 d => cases a <;> cases hr <;> exact ⟨he, by intro h; cases h⟩
  | add1 id =>
    simp only [act, he, if_true] at hr
    cases hr
    exact ⟨rfl, fun _ => rfl⟩
  | add0 id =>
    simp only [act] at hr
    split at hr
    · rename_i hid
      cases hr
      exact ⟨he, fun _ => decide_eq_true hid⟩
    · split at hr <;> cases hr
      exact ⟨he, fun _ => rfl⟩
  | wait0 d =>
    simp only [act] at hr
    split at hr <;> cases hr
    exact ⟨he, fun _ => rfl⟩
  | wait1 d =>
    simp only [act, he, if_true] at hr
    cases hr
    exact ⟨rfl, fun _ => rfl⟩
  | close0 =>
    simp only [act] at hr
    split at hr <;> cases hr
    exact ⟨he, fun _ => rfl⟩
  | close1 =>
    simp only [act, hc, if_true] at hr
    cases hr
    exact ⟨he, fun _ => rfl⟩
  | close2 =>
    simp only [act] at hr
    split at hr <;> cases hr
    exact ⟨he, by intro h; cases h⟩
  | close3 =>
    simp only [act] at hr
    split at hr <;> cases hr
    exact ⟨he, by intro h; cases h⟩
  | close4 =>
    cases hr
    exact ⟨rfl, by intro h; cases h⟩
  | flush0 =>
    simp only [act] at hr
    split at hr <;> cases hr
    exact ⟨he, fun _ => rfl⟩
  | flush1 =>
    simp only [act, hf, if_true] at hr
    cases hr
    exact ⟨he, fun _ => rfl⟩
  | waitDone _ _ => cases hr
  | closeDone _ => cases hr
  | flushDone _ => cases hr
  | addDone _ _ => cases hr

theorem reach_steps {st st' : St} (h : Reachable st) (hs : Steps st st') : Reachable st' := by
  induction hs with
  | refl => exact h
  | step _ h2 ih => exact .step ih h2

/-- **C79, after Close.** Once the poller is closed it stays closed, and every call made from then on returns ErrClosed (or refuses an id that is too large). -/
theorem closed_for_good {st st' : St} (h : Reachable st) (hs : Steps st st') (hc : st.shared.epoll = false) :
    st'.shared.epoll = false ∧
    ∀ (i : Nat) (pc pc' : Pc), st.threads[i]? = some pc → ((∃ d, pc = .wait0 d) ∨ pc = .close0 ∨ pc = .flush0 ∨ ∃ id, pc = .add0 id) → st'.threads[i]? = some pc' → returned pc' = true →
      pc' = .waitDone [] .closed ∨ pc' = .closeDone .closed ∨ pc' = .flushDone .closed ∨ (∃ id, pc' = .addDone id .closed) ∨ (∃ id, 2 ^ 31 - 1 < id ∧ pc' = .addDone id .unsupported) := by
  have key : st'.shared.epoll = false ∧ ∀ (i : Nat) (pc pc' : Pc), st.threads[i]? = some pc → late pc = true → st'.threads[i]? = some pc' → late pc' = true := by
    induction hs with
    | refl => exact ⟨hc, fun i pc pc' h1 h2 h3 => by rw [h1] at h3; cases h3; exact h2⟩
    | step hs1 hs2 ih =>
      have hI := inv (reach_steps h hs1)
      cases hs2 with
      | run j q a hj hk hr =>
        have hsame := hI.same
        simp only at hsame ih
        obtain ⟨a1, a2⟩ := act_closed ih.1 (hsame.1.trans ih.1) (hsame.2.trans ih.1) hr
        refine ⟨a1, fun i pc pc' h1 h2 h3 => ?_⟩
        rcases get_set h3 with ⟨e1, e2⟩ | ⟨_, h3⟩
        · rw [e2]
          exact a2 (ih.2 i pc q h1 h2 (by rw [e1]; exact hj))
        · exact ih.2 i pc pc' h1 h2 h3
      | start q hq =>
        refine ⟨ih.1, fun i pc pc' h1 h2 h3 => ?_⟩
        rename_i ts
        rcases Nat.lt_or_ge i ts.length with hl | hl
        · rw [List.getElem?_append_left hl] at h3
          exact ih.2 i pc pc' h1 h2 h3
        · rw [List.getElem?_append_right hl] at h3
          have : pc' = q := by
            by_cases e : i - ts.length = 0
            · rw [e] at h3; exact (Option.some.inj h3).symm
            · rw [List.getElem?_eq_none (by simp; omega)] at h3; cases h3
          rw [this]
          rcases hq with ⟨d, rfl⟩ | rfl | rfl | ⟨id, rfl⟩ <;> rfl
  refine ⟨key.1, fun i pc pc' h1 h2 h3 h4 => ?_⟩
  have hl : late pc = true := by rcases h2 with ⟨d, rfl⟩ | rfl | rfl | ⟨id, rfl⟩ <;> rfl
  have := key.2 i pc pc' h1 hl h3
  unfold late at this
  split at this <;> first | cases h4 | skip
  · exact .inl rfl
  · exact .inr (.inl rfl)
  · exact .inr (.inr (.inl rfl))
  · exact .inr (.inr (.inr (.inl ⟨_, rfl⟩)))
  · exact .inr (.inr (.inr (.inr ⟨_, of_decide_eq_true this, rfl⟩)))
  · cases this

theorem countP_set' (p : Pc → Bool) : ∀ (ts : List Pc) (i : Nat) (pc pc' : Pc), ts[i]? = some pc →
    (ts.set i pc').countP p + (if p pc then 1 else 0) = ts.countP p + (if p pc' then 1 else 0)
  | [], i, _, _, h => by cases h
  | x :: ts, 0, pc, pc', h => by
    cases h
    simp only [List.set_cons_zero, List.countP_cons]
    omega
  | x :: ts, i + 1, pc, pc', h => by
    have := countP_set' p ts i pc pc' h
    simp only [List.set_cons_succ, List.countP_cons]
    omega

/-- How a step changes the accounts. -/
theorem act_accounts {s s' : Shared} {i : Nat} {a : Answer} {pc pc' : Pc} (hk : Local s pc) (hr : act s i a pc = some (s', pc')) :
    (if flushedWait pc' then 1 else 0) + (if 0 < s'.flushCnt then 1 else 0) + (if flushOk pc then 1 else 0) ≤ (if flushedWait pc then 1 else 0) + (if 0 < s.flushCnt then 1 else 0) + (if flushOk pc' then 1 else 0) := by
  cases pc with
  | wait3 l =>
    obtain ⟨_, hf, _⟩ := hk
    simp only [act, finishWait, Option.some.injEq] at hr
    split at hr
    · cases hr
      simp only [flushedWait, flushOk, Bool.false_eq_true, if_false]
      by_cases h0 : (scan l).2.2 = 0 <;> simp [h0]
    · split at hr
      · rename_i h0
        cases hr
        have := hf (scan_flush h0)
        simp [flushedWait, flushOk, h0, this]
      · rename_i h0
        cases hr
        have h0 : (scan l).2.2 = 0 := by omega
        simp [flushedWait, flushOk, h0]
  | wait2 d => cases a <;> cases hr <;> simp [flushedWait, flushOk]
  | add1 id =>
    simp only [act] at hr
    split at hr
    · cases hr; simp [flushedWait, flushOk]
    · split at hr <;> cases hr <;> simp [flushedWait, flushOk]
  | add0 id =>
    simp only [act] at hr
    split at hr
    · cases hr; simp [flushedWait, flushOk]
    · split at hr <;> cases hr; simp [flushedWait, flushOk]
  | wait0 d => simp only [act] at hr; split at hr <;> cases hr; simp [flushedWait, flushOk]
  | wait1 d => simp only [act] at hr; split at hr <;> cases hr <;> simp [flushedWait, flushOk]
  | close0 => simp only [act] at hr; split at hr <;> cases hr; simp [flushedWait, flushOk]
  | close1 => simp only [act] at hr; split at hr <;> cases hr <;> simp [flushedWait, flushOk]
  | close2 => simp only [act] at hr; split at hr <;> cases hr; simp [flushedWait, flushOk]
  | close3 => simp only [act] at hr; split at hr <;> cases hr; simp [flushedWait, flushOk]
  | close4 => cases hr; simp only [flushedWait, flushOk, closeAll]; exact Nat.le_refl _
  | flush0 => simp only [act] at hr; split at hr <;> cases hr; simp [flushedWait, flushOk]
  | flush1 =>
    simp only [act] at hr
    split at hr
    · cases hr; simp [flushedWait, flushOk]
    · cases hr
      simp only [flushedWait, flushOk, Bool.false_eq_true, if_false, if_true, Nat.succ_pos]
      split <;> omega
  | waitDone _ _ => cases hr
  | closeDone _ => cases hr
  | flushDone _ => cases hr
  | addDone _ _ => cases hr

/-- **C79, results.** ErrFlushed is never made up: there are at least as many successful calls of Flush as Waits that returned it. -/
theorem flush_accounts {st : St} (h : Reachable st) : st.threads.countP flushedWait ≤ st.threads.countP flushOk := by
  suffices hh : st.threads.countP flushedWait + (if 0 < st.shared.flushCnt then 1 else 0) ≤ st.threads.countP flushOk by omega
  induction h with
  | init => simp [fresh]
  | step h1 hs ih =>
    cases hs with
    | run i pc a hi hk hr =>
      have h2 := act_accounts ((inv h1).know i pc hi) hr
      rename_i ts s' pc'
      have h3 := countP_set' flushedWait ts i pc pc' hi
      have h4 := countP_set' flushOk ts i pc pc' hi
      simp only at ih h2 ⊢
      omega
    | start pc hp =>
      rename_i s ts
      have : flushedWait pc = false ∧ flushOk pc = false := by
        rcases hp with ⟨d, rfl⟩ | rfl | rfl | ⟨id, rfl⟩ <;> exact ⟨rfl, rfl⟩
      simp only [List.countP_append, List.countP_cons, List.countP_nil, this.1, this.2, Bool.false_eq_true, if_false] at ih ⊢
      omega


theorem act_close {s s' : Shared} {i : Nat} {a : Answer} {pc pc' : Pc} (hk : Local s pc) (hr : act s i a pc = some (s', pc')) :
    (isClose pc = true → isClose pc' = true) ∧
    ((0 < s'.closeCnt ∨ s'.epoll = false) → (0 < s.closeCnt ∨ s.epoll = false) ∨ isClose pc' = true) ∧
    (closedWait pc' = true → (0 < s.closeCnt ∨ s.epoll = false)) := by
  cases pc with
  | wait3 l =>
    obtain ⟨_, _, _, hc, _⟩ := hk
    have hrep := wait_reports hr
    simp only [act, finishWait, Option.some.injEq] at hr
    refine ⟨(by intro h; cases h), fun h => .inl ?_, fun h => ?_⟩
    · split at hr
      · cases hr; exact h
      · split at hr <;> cases hr <;> exact h
    · rcases hrep with ⟨h1, _⟩ | ⟨_, h2⟩
      · exact .inl (hc h1)
      · rw [h2] at h
        split at h <;> cases h
  | wait2 d => cases a <;> cases hr <;> exact ⟨(by intro h; cases h), fun h => .inl h, (by intro h; cases h)⟩
  | add1 id =>
    simp only [act] at hr
    split at hr
    · cases hr; exact ⟨(by intro h; cases h), fun h => .inl h, (by intro h; cases h)⟩
    · split at hr <;> cases hr <;> exact ⟨(by intro h; cases h), fun h => .inl h, (by intro h; cases h)⟩
  | add0 id =>
    simp only [act] at hr
    split at hr
    · cases hr; exact ⟨(by intro h; cases h), fun h => .inl h, (by intro h; cases h)⟩
    · split at hr <;> cases hr; exact ⟨(by intro h; cases h), fun h => .inl h, (by intro h; cases h)⟩
  | wait0 d => simp only [act] at hr; split at hr <;> cases hr; exact ⟨(by intro h; cases h), fun h => .inl h, (by intro h; cases h)⟩
  | wait1 d =>
    simp only [act] at hr
    split at hr
    · rename_i he
      cases hr
      exact ⟨(by intro h; cases h), fun h => .inl h, fun _ => .inr he⟩
    · cases hr; exact ⟨(by intro h; cases h), fun h => .inl h, (by intro h; cases h)⟩
  | close0 => simp only [act] at hr; split at hr <;> cases hr; exact ⟨fun _ => rfl, fun h => .inr rfl, (by intro h; cases h)⟩
  | close1 => simp only [act] at hr; split at hr <;> cases hr <;> exact ⟨fun _ => rfl, fun h => .inr rfl, (by intro h; cases h)⟩
  | close2 => simp only [act] at hr; split at hr <;> cases hr; exact ⟨fun _ => rfl, fun h => .inr rfl, (by intro h; cases h)⟩
  | close3 => simp only [act] at hr; split at hr <;> cases hr; exact ⟨fun _ => rfl, fun h => .inr rfl, (by intro h; cases h)⟩
  | close4 => cases hr; exact ⟨fun _ => rfl, fun h => .inr rfl, (by intro h; cases h)⟩
  | flush0 => simp only [act] at hr; split at hr <;> cases hr; exact ⟨(by intro h; cases h), fun h => .inl h, (by intro h; cases h)⟩
  | flush1 => simp only [act] at hr; split at hr <;> cases hr <;> exact ⟨(by intro h; cases h), fun h => .inl h, (by intro h; cases h)⟩
  | waitDone _ _ => cases hr
  | closeDone _ => cases hr
  | flushDone _ => cases hr
  | addDone _ _ => cases hr

/-- **C79, results.** ErrClosed is never made up either: Wait only returns it if Close was called. -/
theorem closed_called {st : St} (h : Reachable st) {l : List Ev} (hw : .waitDone l .closed ∈ st.threads) : ∃ pc ∈ st.threads, isClose pc = true := by
  have key : ((0 < st.shared.closeCnt ∨ st.shared.epoll = false) → ∃ pc ∈ st.threads, isClose pc = true) ∧ (∀ pc ∈ st.threads, closedWait pc = true → ∃ pc ∈ st.threads, isClose pc = true) := by
    clear hw
    induction h with
    | init => exact ⟨(by rintro (h | h) <;> cases h), (by intro pc h; cases h)⟩
    | step h1 hs ih =>
      cases hs with
      | run i pc a hi hk hr =>
        obtain ⟨a1, a2, a3⟩ := act_close ((inv h1).know i pc hi) hr
        rename_i s ts s' pc'
        have hlen : i < ts.length := (List.getElem?_eq_some_iff.mp hi).1
        have hmem : pc' ∈ ts.set i pc' := List.mem_set hlen pc'
        have keep : (∃ q ∈ ts, isClose q = true) → ∃ q ∈ ts.set i pc', isClose q = true := by
          rintro ⟨q, hq, hcl⟩
          obtain ⟨j, hj, e⟩ := List.getElem_of_mem hq
          by_cases hji : j = i
          · have : pc = q := by
              rw [hji] at hj
              subst hji
              rw [List.getElem?_eq_getElem hj] at hi
              rw [← e]; exact (Option.some.inj hi).symm
            exact ⟨pc', hmem, a1 (by rw [this]; exact hcl)⟩
          · refine ⟨q, ?_, hcl⟩
            rw [List.mem_iff_getElem?]
            exact ⟨j, by rw [List.getElem?_set_ne (fun x => hji x.symm), List.getElem?_eq_getElem hj, e]⟩
        refine ⟨fun h => ?_, fun q hq hc => ?_⟩
        · rcases a2 h with h | h
          · exact keep (ih.1 h)
          · exact ⟨pc', hmem, h⟩
        · rcases List.mem_or_eq_of_mem_set hq with hq | hq
          · exact keep (ih.2 q hq hc)
          · rw [hq] at hc
            exact keep (ih.1 (a3 hc))
      | start pc hp =>
        have hn : closedWait pc = false := by
          rcases hp with ⟨d, rfl⟩ | rfl | rfl | ⟨id, rfl⟩ <;> rfl
        rename_i s ts
        have keep : (∃ q ∈ ts, isClose q = true) → ∃ q ∈ ts ++ [pc], isClose q = true := fun ⟨q, hq, h⟩ => ⟨q, List.mem_append_left _ hq, h⟩
        refine ⟨fun h => keep (ih.1 h), fun q hq hc => ?_⟩
        rcases List.mem_append.mp hq with hq | hq
        · exact keep (ih.2 q hq hc)
        · rw [List.mem_singleton.mp hq, hn] at hc; cases hc
  exact key.2 _ hw rfl

/-- **C79, results.** Only ids that were added are reported. -/
theorem wait_ids {st : St} (h : Reachable st) {i : Nat} {l : List Ev} (hi : st.threads[i]? = some (.wait3 l)) : ∀ id, Ev.data id ∈ l → id ∈ st.shared.added :=
  ((inv h).know i _ hi).2.2.2.2

/-- **C79, New.** If New fails at any of its system calls, all descriptors made so far are closed, each once; if not, there are three and all are open. -/
theorem new_owned (fails : Nat → Bool) : (new fails).2.1.Nodup ∧ (new fails).2.2.Perm (if (new fails).1 then [] else (new fails).2.1) ∧ ((new fails).1 = true ↔ ∀ k, k < 5 → fails k = false) ∧
    ((new fails).1 = true → (new fails).2.1.length = 3) := by
  have hiff : (∀ k, k < 5 → fails k = false) ↔ fails 0 = false ∧ fails 1 = false ∧ fails 2 = false ∧ fails 3 = false ∧ fails 4 = false := by
    constructor
    · intro h; exact ⟨h 0 (by omega), h 1 (by omega), h 2 (by omega), h 3 (by omega), h 4 (by omega)⟩
    · rintro ⟨h0, h1, h2, h3, h4⟩ k hk
      match k, hk with
      | 0, _ => exact h0
      | 1, _ => exact h1
      | 2, _ => exact h2
      | 3, _ => exact h3
      | 4, _ => exact h4
  rw [hiff]
  unfold new
  cases fails 0 <;> cases fails 1 <;> cases fails 2 <;> cases fails 3 <;> cases fails 4 <;> decide

/-- A history in which a reader waits, Close is called and both return. -/
example : ∃ st, Reachable st ∧ st.threads = [.waitDone [] .closed, .closeDone .ok] ∧ st.shared.closes = (1, 1, 1) := by
  have h0 := Reachable.init
  have h1 := h0.step (.start (.wait0 false) (.inl ⟨_, rfl⟩))
  have h2 := h1.step (.run 0 _ .none rfl trivial rfl)
  have h3 := h2.step (.run 0 _ .none rfl trivial rfl)
  have h4 := h3.step (.start .close0 (.inr (.inl rfl)))
  have h5 := h4.step (.run 1 _ .none rfl trivial rfl)
  have h6 := h5.step (.run 1 _ .none rfl trivial rfl)
  have h7 := h6.step (.run 0 _ (.events [.close]) rfl ⟨by simp, by simp, fun _ => by decide, (by intro h; simp at h), (by intro id h; simp at h)⟩ rfl)
  have h8 := h7.step (.run 0 _ .none rfl trivial rfl)
  have h9 := h8.step (.run 1 _ .none rfl trivial rfl)
  have h10 := h9.step (.run 1 _ .none rfl trivial rfl)
  have h11 := h10.step (.run 1 _ .none rfl trivial rfl)
  exact ⟨_, h11, rfl, rfl⟩

end Ebpf.Poller
