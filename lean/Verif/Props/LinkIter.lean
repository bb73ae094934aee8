import Verif.Model.LinkIter
import Verif.Spec.LinkIter
/-!
# C88: links and iterating over them
-/
namespace Ebpf.LinkIter
open Ebpf.LinkIterSpec

/-- Every type of link has its Go type. -/
theorem classOf_linux (t : Nat) : classOf t = goType t := by
  unfold classOf goType linux
  split <;> first | rfl | skip
  rename_i h1 h2 h3 h4 h5 h6 h7 h8 h9 h10 h11 h12 h13
  match t with
  | 0 => rfl
  | 1 => exact absurd rfl h1
  | 2 => exact absurd rfl h2
  | 3 => exact absurd rfl h3
  | 4 => exact absurd rfl h4
  | 5 => exact absurd rfl h5
  | 6 => exact absurd rfl h6
  | 7 => exact absurd rfl h7
  | 8 => exact absurd rfl h8
  | 9 => exact absurd rfl h9
  | 10 => exact absurd rfl h10
  | 11 => exact absurd rfl h11
  | 12 => exact absurd rfl h12
  | 13 => exact absurd rfl h13
  | n + 14 => rfl

theorem close_eq (s : S) (fd : Nat) (o : Option Nat) (fds : List (Nat × Option Nat)) (h : s.fds = (fd, o) :: fds) (hn : ∀ x ∈ fds, x.1 ≠ fd) :
    close s fd = { s with fds := fds } := by
  unfold close
  rw [if_pos (by simp [h]), h]
  have : ((fd, o) :: fds).filter (fun x => x.1 != fd) = fds := by
    rw [List.filter_cons]
    simp only [bne_self_eq_false, Bool.false_eq_true, if_false]
    rw [List.filter_eq_self]
    intro x hx
    simp [hn x hx]
  rw [this]

/-- Closing an open descriptor closes it and nothing else. -/
theorem close_open (s : S) (fd : Nat) (h : fd ∈ s.fds.map (·.1)) (hf : Fine s) :
    Fine (close s fd) ∧ (∀ x, x ∈ (close s fd).fds ↔ x ∈ s.fds ∧ x.1 ≠ fd) ∧ (close s fd).t = s.t ∧ (close s fd).next = s.next := by
  obtain ⟨y, hy, he⟩ := List.mem_map.mp h
  have hc : close s fd = { s with fds := s.fds.filter (fun x => x.1 != fd) } := by
    unfold close
    rw [if_pos]
    rw [List.any_eq_true]
    exact ⟨y, hy, by simp [he]⟩
  rw [hc]
  refine ⟨⟨?_, ?_, hf.2.2⟩, ?_, rfl, rfl⟩
  · exact List.Nodup.sublist (List.Sublist.map _ List.filter_sublist) hf.1
  · intro x hx; exact hf.2.1 x (List.mem_filter.mp hx).1
  · intro x; simp [List.mem_filter]

theorem wrap_spec (k : Kern) (s : S) (fd : Nat) (o : Option Nat) (fds : List (Nat × Option Nat)) (h : s.fds = (fd, o) :: fds) (hn : ∀ x ∈ fds, x.1 ≠ fd) :
    (∀ s' l, wrapRawLink k s fd = (s', .ok l) → s' = tick s ∧ l.fd = fd ∧ ∃ id, o = some id ∧ l.cls = goType (k.typ s.t id)) ∧
    (∀ s' e, wrapRawLink k s fd = (s', .error e) → s' = { tick s with fds := fds } ∧ e = .info) := by
  have hl : s.fds.lookup fd = some o := by rw [h]; simp
  unfold wrapRawLink info
  cases hf : k.fail s.t with
  | some e =>
    simp only
    refine ⟨fun s' l hh => by simp at hh, fun s' e' hh => ?_⟩
    simp only [Prod.mk.injEq, Except.error.injEq] at hh
    rw [← hh.1, ← hh.2]
    exact ⟨close_eq (tick s) fd o fds h hn, rfl⟩
  | none =>
    simp only [hl]
    cases o with
    | none =>
      simp only
      refine ⟨fun s' l hh => by simp at hh, fun s' e' hh => ?_⟩
      simp only [Prod.mk.injEq, Except.error.injEq] at hh
      rw [← hh.1, ← hh.2]
      exact ⟨close_eq (tick s) fd none fds h hn, rfl⟩
    | some id =>
      simp only
      refine ⟨fun s' l hh => ?_, fun s' e' hh => by simp at hh⟩
      simp only [Prod.mk.injEq, Except.ok.injEq] at hh
      rw [← hh.1, ← hh.2]
      exact ⟨rfl, rfl, id, rfl, classOf_linux _⟩

theorem fresh (s : S) (hf : Fine s) : ∀ x ∈ s.fds, x.1 ≠ s.next := fun x hx => Nat.ne_of_lt (hf.2.1 x hx)

/-- **C88.** The link of an ID: a new descriptor, for that link, which existed; otherwise no descriptor is left. `noent` means that there was none. -/
theorem newFromID_exact (k : Kern) (s : S) (hf : Fine s) (id : Nat) :
    (∀ s' l, newFromID k s id = (s', .ok l) → Opened k s s' l id ∧ id ∈ k.ids s.t ∧ s'.t = s.t + 2) ∧
    (∀ s' e, newFromID k s id = (s', .error e) → s'.fds = s.fds ∧ s.next ≤ s'.next ∧ s'.bad = s.bad ∧ s.t < s'.t ∧ (e = .noent → id ∉ k.ids s.t)) := by
  unfold newFromID getFdById
  cases hfail : k.fail s.t with
  | some e =>
    simp only
    refine ⟨fun s' l hh => by simp at hh, fun s' e' hh => ?_⟩
    simp only [Prod.mk.injEq, Except.error.injEq] at hh
    rw [← hh.1, ← hh.2]
    simp [tick]
  | none =>
    simp only
    by_cases hc : (k.ids s.t).contains id = true
    · simp only [hc, if_true, openFd]
      have hw := wrap_spec k { s with t := s.t + 1, fds := (s.next, some id) :: s.fds, next := s.next + 1 } s.next (some id) s.fds rfl (fresh s hf)
      refine ⟨fun s' l hh => ?_, fun s' e' hh => ?_⟩
      · obtain ⟨h1, h2, id', h3, h4⟩ := hw.1 s' l hh
        simp only [Option.some.injEq] at h3
        subst h3 h1
        exact ⟨⟨by simp [tick, h2], h2, rfl, rfl, s.t + 1, by omega, by simp [tick], h4⟩, by simpa using hc, rfl⟩
      · obtain ⟨h1, h2⟩ := hw.2 s' e' hh
        subst h1 h2
        simp [tick]
        omega
    · simp only [hc, Bool.false_eq_true, if_false]
      refine ⟨fun s' l hh => by simp at hh, fun s' e' hh => ?_⟩
      simp only [Prod.mk.injEq, Except.error.injEq] at hh
      rw [← hh.1, ← hh.2]
      simp only [tick, Nat.le_refl, true_and]
      exact ⟨by omega, fun _ => by simpa using hc⟩

/-- **C88.** NewFromFD takes the descriptor over: it is the link's one, or it is closed. -/
theorem newFromFD_exact (k : Kern) (s : S) (fd : Nat) (o : Option Nat) (fds : List (Nat × Option Nat)) (h : s.fds = (fd, o) :: fds) (hn : ∀ x ∈ fds, x.1 ≠ fd) :
    (∀ s' l, newFromFD k s (some fd) = (s', .ok l) → s'.fds = s.fds ∧ s'.bad = s.bad ∧ l.fd = fd ∧ ∃ id, o = some id ∧ l.cls = goType (k.typ s.t id)) ∧
    (∀ s' e, newFromFD k s (some fd) = (s', .error e) → s'.fds = fds ∧ s'.bad = s.bad) ∧
    (o = none → ∃ s' e, newFromFD k s (some fd) = (s', .error e)) := by
  have hw := wrap_spec k s fd o fds h hn
  refine ⟨fun s' l hh => ?_, fun s' e hh => ?_, fun ho => ?_⟩
  · obtain ⟨h1, h2, h3⟩ := hw.1 s' l hh
    subst h1
    exact ⟨rfl, rfl, h2, h3⟩
  · obtain ⟨h1, _⟩ := hw.2 s' e hh
    subst h1
    exact ⟨rfl, rfl⟩
  · cases hr : newFromFD k s (some fd) with
    | mk s' r =>
      cases r with
      | error e => exact ⟨s', e, rfl⟩
      | ok l =>
        obtain ⟨_, _, id, h3, _⟩ := hw.1 s' l hr
        rw [ho] at h3
        simp at h3

/-- **C88.** A pinned link: a new descriptor for the link that is pinned there; if there is none, or something else, no descriptor is left. -/
theorem loadPinned_exact (k : Kern) (s : S) (hf : Fine s) :
    (∀ s' l, loadPinned k s = (s', .ok l) → ∃ id, k.pin s.t = some (some id) ∧ Opened k s s' l id) ∧
    (∀ s' e, loadPinned k s = (s', .error e) → s'.fds = s.fds ∧ s'.bad = s.bad ∧ (e = .noent → k.pin s.t = none) ∧ (e = .notLink → k.pin s.t = some none)) ∧
    (k.fail s.t = none → k.fail (s.t + 1) = none → ∀ id, k.pin s.t = some (some id) → ∃ s' l, loadPinned k s = (s', .ok l)) := by
  unfold loadPinned
  cases hfail : k.fail s.t with
  | some e =>
    simp only
    refine ⟨fun s' l hh => by simp at hh, fun s' e' hh => ?_, fun hc => by simp at hc⟩
    simp only [Prod.mk.injEq, Except.error.injEq] at hh
    rw [← hh.1, ← hh.2]
    simp [tick]
  | none =>
    cases hp : k.pin s.t with
    | none =>
      simp only
      refine ⟨fun s' l hh => by simp at hh, fun s' e' hh => ?_, fun _ _ id hc => by simp at hc⟩
      simp only [Prod.mk.injEq, Except.error.injEq] at hh
      rw [← hh.1, ← hh.2]
      simp [tick]
    | some o =>
      simp only [openFd]
      cases o with
      | none =>
        simp only [Option.isNone_none, if_true]
        refine ⟨fun s' l hh => by simp at hh, fun s' e' hh => ?_, fun _ _ id hc => by simp at hc⟩
        simp only [Prod.mk.injEq, Except.error.injEq] at hh
        rw [← hh.1, ← hh.2, close_eq _ s.next none s.fds rfl (fresh s hf)]
        simp
      | some id =>
        simp only [Option.isNone_some, Bool.false_eq_true, if_false]
        have hw := wrap_spec k { s with t := s.t + 1, fds := (s.next, some id) :: s.fds, next := s.next + 1 } s.next (some id) s.fds rfl (fresh s hf)
        refine ⟨fun s' l hh => ?_, fun s' e' hh => ?_, fun _ hn id' _ => ?_⟩
        · obtain ⟨h1, h2, id', h3, h4⟩ := hw.1 s' l hh
          simp only [Option.some.injEq] at h3
          subst h3 h1
          exact ⟨id, rfl, by simp [tick, h2], h2, rfl, rfl, s.t + 1, by omega, by simp [tick], h4⟩
        · obtain ⟨h1, h2⟩ := hw.2 s' e' hh
          subst h1 h2
          simp [tick]
        · simp only [wrapRawLink, info, hn, List.lookup_cons_self]
          exact ⟨_, _, rfl⟩

/-! ### Iterating -/

theorem getNextId_spec (k : Kern) (hk : Sorted k) (s : S) (id : Nat) :
    (∀ s' x, getNextId k s id = (s', .ok x) → s' = tick s ∧ id < x ∧ x ∈ k.ids s.t ∧ ∀ y ∈ k.ids s.t, id < y → x ≤ y) ∧
    (∀ s' e, getNextId k s id = (s', .error e) → s' = tick s ∧ (e = .noent → ∀ y ∈ k.ids s.t, y ≤ id)) := by
  unfold getNextId
  cases k.fail s.t with
  | some e =>
    refine ⟨fun s' l hh => by simp at hh, fun s' e' hh => ?_⟩
    simp only [Prod.mk.injEq, Except.error.injEq] at hh
    rw [← hh.1, ← hh.2]
    simp
  | none =>
    simp only
    cases hfd : (k.ids s.t).find? (fun x => decide (id < x)) with
    | none =>
      refine ⟨fun s' l hh => by simp at hh, fun s' e' hh => ?_⟩
      simp only [Prod.mk.injEq, Except.error.injEq] at hh
      rw [← hh.1]
      refine ⟨rfl, fun _ y hy => ?_⟩
      have := List.find?_eq_none.mp hfd y hy
      simpa using this
    | some x =>
      refine ⟨fun s' l hh => ?_, fun s' e' hh => by simp at hh⟩
      simp only [Prod.mk.injEq, Except.ok.injEq] at hh
      rw [← hh.1, ← hh.2]
      obtain ⟨h1, as, bs, h2, h3⟩ := List.find?_eq_some_iff_append.mp hfd
      refine ⟨rfl, by simpa using h1, by rw [h2]; simp, fun y hy hlt => ?_⟩
      have hs := hk s.t
      rw [h2] at hy hs
      rcases List.mem_append.mp hy with hy | hy
      · have := h3 y hy
        simp at this
        omega
      · rcases List.mem_cons.mp hy with rfl | hy
        · exact Nat.le_refl _
        · exact Nat.le_of_lt ((List.pairwise_cons.mp (List.pairwise_append.mp hs).2.1).1 y hy)

theorem nextLoop_spec (k : Kern) (hk : Sorted k) : ∀ (n : Nat) (s : S) (id : Nat), Fine s →
    (∀ s' id' l, nextLoop k n s id = some (s', .ok (id', l)) → id < id' ∧ (∃ u, s.t ≤ u ∧ u < s'.t ∧ id' ∈ k.ids u) ∧ Opened k s s' l id' ∧
      ∀ x, id < x → Lasting k s.t s'.t x → id' ≤ x) ∧
    (∀ s' e, nextLoop k n s id = some (s', .error e) → s'.fds = s.fds ∧ s.next ≤ s'.next ∧ s'.bad = s.bad ∧ s.t < s'.t ∧
      (e = none → ∀ x, id < x → ¬Lasting k s.t s'.t x)) := by
  intro n
  induction n with
  | zero => intro s id _; simp [nextLoop]
  | succ n ih =>
    intro s id hf
    unfold nextLoop
    have hg := getNextId_spec k hk s id
    cases hgn : getNextId k s id with
    | mk s1 r =>
      cases r with
      | error e =>
        obtain ⟨h1, h2⟩ := hg.2 _ _ hgn
        subst h1
        have base : ∀ x, id < x → e = .noent → ¬Lasting k s.t (tick s).t x := by
          intro x hx he hl
          have := h2 he x (hl s.t (Nat.le_refl _) (by simp [tick]))
          omega
        cases e <;> simp only <;> refine ⟨fun s' id' l hh => by simp at hh, fun s' e' hh => ?_⟩
        all_goals
          simp only [Option.some.injEq, Prod.mk.injEq, Except.error.injEq] at hh
          rw [← hh.1, ← hh.2]
          refine ⟨rfl, Nat.le_refl _, rfl, by simp [tick], ?_⟩
        · intro _ x hx; exact base x hx rfl
        all_goals intro hc; simp at hc
      | ok id1 =>
        obtain ⟨h1, h2, h3, h4⟩ := hg.1 _ _ hgn
        subst h1
        have hf1 : Fine (tick s) := hf
        have hid := newFromID_exact k (tick s) hf1 id1
        simp only
        cases hni : newFromID k (tick s) id1 with
        | mk s2 r2 =>
          cases r2 with
          | ok l =>
            obtain ⟨⟨g1, g2, g3, g4, u, g5, g6, g7⟩, g8, g9⟩ := hid.1 _ _ hni
            simp only
            refine ⟨fun s' id' l' hh => ?_, fun s' e hh => by simp at hh⟩
            simp only [Option.some.injEq, Prod.mk.injEq, Except.ok.injEq] at hh
            obtain ⟨e1, e2, e3⟩ := hh
            subst e1 e2 e3
            have e5 : s.t ≤ u := by simp only [tick] at g5; omega
            refine ⟨h2, ⟨s.t, Nat.le_refl _, by omega, h3⟩, ⟨g1, g2, g3, g4, u, e5, g6, g7⟩, ?_⟩
            intro x hx hl
            exact h4 x (hl s.t (Nat.le_refl _) (by omega)) hx
          | error e =>
            obtain ⟨g1, g2, g3, g4, g5⟩ := hid.2 _ _ hni
            have g4' : s.t + 1 < s2.t := g4
            by_cases he : e = .noent
            · subst he
              simp only
              have hf2 : Fine s2 := ⟨by rw [g1]; exact hf.1, by rw [g1]; intro x hx; exact Nat.lt_of_lt_of_le (hf.2.1 x hx) g2, by rw [g3]; exact hf.2.2⟩
              obtain ⟨i1, i2⟩ := ih s2 id1 hf2
              have skip : ∀ (s' : S) x, s2.t ≤ s'.t → id < x → Lasting k s.t s'.t x → id1 < x := by
                intro s' x hle hx hl
                have hle1 := h4 x (hl s.t (Nat.le_refl _) (by omega)) hx
                have hne : x ≠ id1 := by
                  intro e
                  subst e
                  exact g5 rfl (hl (s.t + 1) (by omega) (by omega))
                omega
              refine ⟨fun s' id' l hh => ?_, fun s' e' hh => ?_⟩
              · obtain ⟨j1, ⟨u, j2, j3, j4⟩, ⟨j5, j6, j7, j8, u', j9, j10, j11⟩, j12⟩ := i1 _ _ _ hh
                have hn : s2.next = s.next := by
                  have : newFromID k (tick s) id1 = (s2, .error .noent) := hni
                  unfold newFromID getFdById at this
                  cases hfl : k.fail (tick s).t with
                  | some e => simp [hfl] at this
                  | none =>
                    simp only [hfl] at this
                    by_cases hc : (k.ids (tick s).t).contains id1 = true
                    · exact absurd (by simpa using hc) (g5 rfl)
                    · simp only [hc, Bool.false_eq_true, if_false, Prod.mk.injEq] at this
                      rw [← this.1]; rfl
                refine ⟨by omega, ⟨u, by omega, j3, j4⟩, ⟨by rw [j5, g1]; rfl, by rw [j6, hn], by rw [j7, hn], by rw [j8, g3]; rfl, u', by omega, j10, j11⟩, ?_⟩
                intro x hx hl
                exact j12 x (skip s' x (by omega) hx hl) (fun v hv hv' => hl v (by omega) hv')
              · obtain ⟨j1, j2, j3, j4, j5⟩ := i2 _ _ hh
                refine ⟨by rw [j1, g1]; rfl, Nat.le_trans g2 j2, by rw [j3, g3]; rfl, by omega, ?_⟩
                intro he x hx hl
                exact j5 he x (skip s' x (by omega) hx hl) (fun v hv hv' => hl v (by omega) hv')
            · cases e <;> first | exact absurd rfl he | skip
              all_goals
                simp only
                refine ⟨fun s' id' l hh => by simp at hh, fun s' e' hh => ?_⟩
                simp only [Option.some.injEq, Prod.mk.injEq, Except.error.injEq] at hh
                rw [← hh.1, ← hh.2]
                exact ⟨g1, g2, g3, by omega, fun hc => by simp at hc⟩

/-- Next always returns, because IDs are numbers below some bound (2^32). -/
theorem next_terminates (k : Kern) (hk : Sorted k) (b : Nat) (hb : ∀ t, ∀ x ∈ k.ids t, x < b) : ∀ (n : Nat) (s : S) (id : Nat), b - id < n → nextLoop k n s id ≠ none := by
  intro n
  induction n with
  | zero => intro s id h; omega
  | succ n ih =>
    intro s id h
    unfold nextLoop
    have hg := getNextId_spec k hk s id
    cases hgn : getNextId k s id with
    | mk s1 r =>
      cases r with
      | error e => cases e <;> simp
      | ok id1 =>
        obtain ⟨h1, h2, h3, _⟩ := hg.1 _ _ hgn
        have := hb _ _ h3
        simp only
        cases hni : newFromID k s1 id1 with
        | mk s2 r2 =>
          cases r2 with
          | ok l => simp
          | error e =>
            cases e
            case noent => exact ih s2 id1 (by omega)
            all_goals simp

/-- What holds at any time while a program uses an Iterator. -/
structure Inv (k : Kern) (s0 : S) (h : H) : Prop where
  fine : Fine h.s
  time : s0.t ≤ h.s.t
  nxt : s0.next ≤ h.s.next
  keep : ∀ x ∈ s0.fds, x ∈ h.s.fds
  only : ∀ x ∈ h.s.fds, x ∈ s0.fds ∨ x.1 ∈ (owned h).map (·.fd)
  nodup : ((owned h).map (·.fd)).Nodup
  new : ∀ l ∈ owned h, s0.next ≤ l.fd ∧ ∃ id, (id, l) ∈ h.seen ∧ (l.fd, some id) ∈ h.s.fds
  cur : ∀ l, h.it.link = some l → (h.it.id, l) ∈ h.seen ∧ (l.fd, some h.it.id) ∈ h.s.fds
  asc : (h.seen.map (·.1)).Pairwise (· < ·)
  upto : ∀ y ∈ h.seen, y.1 ≤ h.it.id
  real : ∀ y ∈ h.seen, (∃ u, s0.t ≤ u ∧ u < h.s.t ∧ y.1 ∈ k.ids u) ∧ ∃ u, s0.t ≤ u ∧ u < h.s.t ∧ y.2.cls = goType (k.typ u y.1)
  all : ∀ x, 0 < x → Lasting k s0.t h.s.t x → x ≤ h.it.id ∨ h.finished = true → x ∈ h.seen.map (·.1)
  fin : h.finished = true → h.it.link = none

theorem lasting_mono (k : Kern) (t t' u x : Nat) (h : Lasting k t u x) (hle : t' ≤ u) : Lasting k t t' x := fun v hv hv' => h v hv (by omega)

theorem fd_unique (s : S) (hf : Fine s) (x y : Nat × Option Nat) (hx : x ∈ s.fds) (hy : y ∈ s.fds) (e : x.1 = y.1) : x = y := by
  obtain ⟨i, hi⟩ := List.mem_iff_getElem?.mp hx
  obtain ⟨j, hj⟩ := List.mem_iff_getElem?.mp hy
  obtain ⟨hli, hi'⟩ := List.getElem?_eq_some_iff.mp hi
  obtain ⟨hlj, hj'⟩ := List.getElem?_eq_some_iff.mp hj
  have hp := List.pairwise_iff_getElem.mp hf.1
  rcases Nat.lt_trichotomy i j with hlt | he | hlt
  · exact (hp i j (by simpa using hli) (by simpa using hlj) hlt (by simp [hi', hj', e])).elim
  · subst he; rw [hi] at hj; simpa using hj
  · exact (hp j i (by simpa using hlj) (by simpa using hli) hlt (by simp [hi', hj', e])).elim

theorem closeLink_spec (s : S) (hf : Fine s) (l : Option Lnk) (h : ∀ x, l = some x → x.fd ∈ s.fds.map (·.1)) :
    Fine (closeLink s l) ∧ (∀ x, x ∈ (closeLink s l).fds ↔ x ∈ s.fds ∧ ∀ y, l = some y → x.1 ≠ y.fd) ∧ (closeLink s l).t = s.t ∧ (closeLink s l).next = s.next := by
  cases l with
  | none => simp only [closeLink]; exact ⟨hf, by simp, trivial, trivial⟩
  | some y =>
    obtain ⟨h1, h2, h3, h4⟩ := close_open s y.fd (h y rfl) hf
    simp only [closeLink]
    exact ⟨h1, fun x => by rw [h2]; simp, h3, h4⟩

/-- The state after the loop of Next and after closing the old link. -/
theorem inv_next (k : Kern) (hk : Sorted k) (fuel : Nat) (s0 : S) (hf0 : Fine s0) (h h' : H) (hi : Inv k s0 h) (hs : step k fuel h .next = some h') : Inv k s0 h' := by
  have cur_in : ∀ l, h.it.link = some l → l.fd ∈ h.s.fds.map (·.1) := fun l hl => List.mem_map.mpr ⟨_, (hi.cur l hl).2, rfl⟩
  have own_cur : ∀ l, h.it.link = some l → l ∈ owned h := fun l hl => by simp [owned, hl]
  have own_taken : ∀ l ∈ h.taken, l ∈ owned h := fun l hl => by simp [owned, hl]
  have taken_ne : ∀ l ∈ h.taken, ∀ y, h.it.link = some y → l.fd ≠ y.fd := by
    intro l hl y hy
    have := hi.nodup
    simp only [owned, List.map_append, List.nodup_append, hy, Option.toList_some, List.map_cons, List.map_nil] at this
    exact this.2.2 l.fd (List.mem_map.mpr ⟨l, hl, rfl⟩) y.fd (by simp)
  have taken_nodup : (h.taken.map (·.fd)).Nodup := by
    have := hi.nodup
    simp only [owned, List.map_append, List.nodup_append] at this
    exact this.1
  have base_ne : ∀ x ∈ s0.fds, ∀ y, h.it.link = some y → x.1 ≠ y.fd := by
    intro x hx y hy
    have h1 := hf0.2.1 x hx
    have h2 := (hi.new y (own_cur y hy)).1
    omega
  obtain ⟨l1, l2⟩ := nextLoop_spec k hk fuel h.s h.it.id hi.fine
  simp only [step, next] at hs
  cases hl : nextLoop k fuel h.s h.it.id with
  | none => rw [hl] at hs; simp at hs
  | some r =>
    obtain ⟨s1, r⟩ := r
    rw [hl] at hs
    cases r with
    | ok y =>
      obtain ⟨id', l⟩ := y
      simp only [Option.map_some, Option.toList_some, Option.some.injEq] at hs
      obtain ⟨g1, ⟨u, g2, g3, g4⟩, ⟨g5, g6, g7, g8, u', g9, g10, g11⟩, g12⟩ := l1 _ _ _ hl
      have hf1 : Fine s1 := by
        refine ⟨?_, ?_, by rw [g8]; exact hi.fine.2.2⟩
        · rw [g5, List.map_cons, List.nodup_cons]
          refine ⟨?_, hi.fine.1⟩
          intro hm
          obtain ⟨x, hx, he⟩ := List.mem_map.mp hm
          have := hi.fine.2.1 x hx
          simp only at he
          omega
        · rw [g5, g7]
          intro x hx
          rcases List.mem_cons.mp hx with rfl | hx
          · simp only; omega
          · have := hi.fine.2.1 x hx; omega
      have hc := closeLink_spec s1 hf1 h.it.link (fun y hy => by rw [g5]; simp only [List.map_cons, List.mem_cons]; exact Or.inr (cur_in y hy))
      obtain ⟨c1, c2, c3, c4⟩ := hc
      have lt_next : ∀ y, h.it.link = some y → y.fd ≠ l.fd := by
        intro y hy
        have := hi.fine.2.1 _ (hi.cur y hy).2
        simp only at this
        omega
      have hin : (l.fd, some id') ∈ (closeLink s1 h.it.link).fds := by
        rw [c2, g5]
        exact ⟨by simp, fun y hy => fun e => lt_next y hy e.symm⟩
      subst hs
      refine ⟨c1, by simp only [c3]; have := hi.time; omega, by simp only [c4, g7]; have := hi.nxt; omega, ?_, ?_, ?_, ?_, ?_, ?_, ?_, ?_, ?_, by simp⟩
      · intro x hx
        rw [c2, g5]
        exact ⟨by simp [hi.keep x hx], base_ne x hx⟩
      · intro x hx
        simp only at hx
        rw [c2, g5] at hx
        obtain ⟨hx, hne⟩ := hx
        simp only [owned, List.map_append, List.mem_append, Option.toList_some, List.map_cons, List.map_nil]
        rcases List.mem_cons.mp hx with rfl | hx
        · exact Or.inr (Or.inr (by simp))
        · rcases hi.only x hx with hb | ho
          · exact Or.inl hb
          · simp only [owned, List.map_append, List.mem_append] at ho
            rcases ho with ho | ho
            · exact Or.inr (Or.inl ho)
            · obtain ⟨y, hy, he⟩ := List.mem_map.mp ho
              have hy' : h.it.link = some y := by simpa using hy
              exact absurd he.symm (hne y hy')
      · simp only [owned, List.map_append, List.nodup_append, Option.toList_some, List.map_cons, List.map_nil]
        refine ⟨taken_nodup, by simp, ?_⟩
        intro a ha b hb e
        obtain ⟨y, hy, he⟩ := List.mem_map.mp ha
        obtain ⟨_, id0, _, hy2⟩ := hi.new y (own_taken y hy)
        have := hi.fine.2.1 _ hy2
        simp only [List.mem_cons, List.not_mem_nil, or_false] at hb
        simp only at this
        omega
      · intro y hy
        simp only [owned, List.mem_append, Option.toList_some, List.mem_cons, List.not_mem_nil, or_false] at hy
        rcases hy with hy | rfl
        · obtain ⟨n1, id0, n2, n3⟩ := hi.new y (own_taken y hy)
          refine ⟨n1, id0, by simp [n2], ?_⟩
          rw [c2, g5]
          exact ⟨by simp [n3], fun z hz => taken_ne y hy z hz⟩
        · exact ⟨by have := hi.nxt; omega, id', by simp, hin⟩
      · intro y hy
        simp only [Option.some.injEq] at hy
        subst hy
        exact ⟨by simp, hin⟩
      · simp only [List.map_append, List.map_cons, List.map_nil]
        rw [List.pairwise_append]
        refine ⟨hi.asc, by simp, ?_⟩
        intro a ha b hb
        obtain ⟨y, hy, he⟩ := List.mem_map.mp ha
        have := hi.upto y hy
        simp only [List.mem_cons, List.not_mem_nil, or_false] at hb
        omega
      · intro y hy
        simp only [List.mem_append, List.mem_cons, List.not_mem_nil, or_false] at hy
        rcases hy with hy | rfl
        · have := hi.upto y hy; simp only; omega
        · exact Nat.le_refl _
      · intro y hy
        simp only [List.mem_append, List.mem_cons, List.not_mem_nil, or_false] at hy
        have ht := hi.time
        rcases hy with hy | rfl
        · obtain ⟨⟨v, v1, v2, v3⟩, w, w1, w2, w3⟩ := hi.real y hy
          exact ⟨⟨v, v1, by simp only [c3]; omega, v3⟩, w, w1, by simp only [c3]; omega, w3⟩
        · exact ⟨⟨u, by omega, by simp only [c3]; omega, g4⟩, u', by omega, by simp only [c3]; omega, g11⟩
      · intro x hx hlast hcase
        simp only [Bool.false_eq_true, or_false] at hcase
        simp only [c3] at hlast
        simp only [List.map_append, List.map_cons, List.map_nil, List.mem_append, List.mem_cons, List.not_mem_nil, or_false]
        by_cases hle : x ≤ h.it.id
        · exact Or.inl (hi.all x hx (lasting_mono k _ _ _ _ hlast (by omega)) (Or.inl hle))
        · have := g12 x (by omega) (fun v hv hv' => hlast v (by have := hi.time; omega) hv')
          exact Or.inr (by omega)
    | error e =>
      obtain ⟨g1, g2, g3, g4, g5⟩ := l2 _ _ hl
      have hf1 : Fine s1 := ⟨by rw [g1]; exact hi.fine.1, by rw [g1]; intro x hx; exact Nat.lt_of_lt_of_le (hi.fine.2.1 x hx) g2, by rw [g3]; exact hi.fine.2.2⟩
      have hc := closeLink_spec s1 hf1 h.it.link (fun y hy => by rw [g1]; exact cur_in y hy)
      obtain ⟨c1, c2, c3, c4⟩ := hc
      have ht := hi.time
      have main : ∀ (err : Option E) (fin : Bool), (fin = true → e = none) → Inv k s0 { h with s := closeLink s1 h.it.link, it := ⟨h.it.id, none, err⟩, finished := fin } := by
        intro err fin hfin
        refine ⟨c1, by simp only [c3]; omega, by simp only [c4]; have := hi.nxt; omega, ?_, ?_, ?_, ?_, ?_, hi.asc, hi.upto, ?_, ?_, fun _ => rfl⟩
        · intro x hx
          rw [c2, g1]
          exact ⟨hi.keep x hx, base_ne x hx⟩
        · intro x hx
          simp only at hx
          rw [c2, g1] at hx
          rcases hi.only x hx.1 with hb | ho
          · exact Or.inl hb
          · refine Or.inr ?_
            simp only [owned, List.map_append, List.mem_append] at ho ⊢
            rcases ho with ho | ho
            · exact Or.inl ho
            · obtain ⟨y, hy, he⟩ := List.mem_map.mp ho
              exact absurd he.symm (hx.2 y (by simpa using hy))
        · simpa [owned] using taken_nodup
        · intro y hy
          have hy : y ∈ h.taken := by simpa [owned] using hy
          obtain ⟨n1, id0, n2, n3⟩ := hi.new y (own_taken y hy)
          refine ⟨n1, id0, n2, ?_⟩
          rw [c2, g1]
          exact ⟨n3, fun z hz => taken_ne y hy z hz⟩
        · intro y hy; simp at hy
        · intro y hy
          obtain ⟨⟨v, v1, v2, v3⟩, w, w1, w2, w3⟩ := hi.real y hy
          exact ⟨⟨v, v1, by simp only [c3]; omega, v3⟩, w, w1, by simp only [c3]; omega, w3⟩
        · intro x hx hlast hcase
          simp only [c3] at hlast
          by_cases hle : x ≤ h.it.id
          · exact hi.all x hx (lasting_mono k _ _ _ _ hlast (by omega)) (Or.inl hle)
          · simp only [hle, false_or] at hcase
            exact absurd (fun v hv hv' => hlast v (by omega) hv') (g5 (hfin hcase) x (by omega))
      cases e with
      | none =>
        simp only [Option.some.injEq] at hs
        rw [← hs]
        exact main h.it.err _ (fun _ => rfl)
      | some e =>
        simp only [Option.some.injEq] at hs
        rw [← hs]
        exact main (some e) _ (fun hc => by simp at hc)

theorem inv_step (k : Kern) (hk : Sorted k) (fuel : Nat) (s0 : S) (hf0 : Fine s0) (h h' : H) (o : Op) (hi : Inv k s0 h) (hs : step k fuel h o = some h') : Inv k s0 h' := by
  cases o with
  | next => exact inv_next k hk fuel s0 hf0 h h' hi hs
  | take =>
    simp only [step, take, Option.some.injEq] at hs
    subst hs
    have hp : ∀ l, l ∈ h.it.link.toList ++ h.taken ++ (none : Option Lnk).toList ↔ l ∈ owned h := by
      intro l; simp only [owned, List.mem_append, Option.toList_none, List.not_mem_nil, or_false]; exact Or.comm
    refine ⟨hi.fine, hi.time, hi.nxt, hi.keep, ?_, ?_, ?_, by simp, hi.asc, hi.upto, hi.real, hi.all, fun _ => rfl⟩
    · intro x hx
      rcases hi.only x hx with hb | ho
      · exact Or.inl hb
      · obtain ⟨l, hl, he⟩ := List.mem_map.mp ho
        exact Or.inr (List.mem_map.mpr ⟨l, (hp l).mpr hl, he⟩)
    · have := hi.nodup
      simp only [owned, List.map_append, List.nodup_append, Option.toList_none, List.append_nil] at this ⊢
      exact ⟨this.2.1, this.1, fun a ha b hb e => this.2.2 b hb a ha e.symm⟩
    · intro l hl
      exact hi.new l ((hp l).mp hl)
  | drop =>
    simp only [step] at hs
    cases ht : h.taken with
    | nil => rw [ht] at hs; simp at hs; rw [← hs]; exact hi
    | cons l r =>
      rw [ht] at hs
      simp only [Option.some.injEq] at hs
      have hlo : l ∈ owned h := by simp [owned, ht]
      obtain ⟨n1, id0, n2, n3⟩ := hi.new l hlo
      have hnd := hi.nodup
      simp only [owned, ht, List.cons_append, List.map_cons, List.nodup_cons] at hnd
      obtain ⟨c1, c2, c3, c4⟩ := close_open h.s l.fd (List.mem_map.mpr ⟨_, n3, rfl⟩) hi.fine
      have hne : ∀ y ∈ r ++ h.it.link.toList, y.fd ≠ l.fd := fun y hy e => hnd.1 (List.mem_map.mpr ⟨y, hy, e⟩)
      have hsub : ∀ y ∈ r ++ h.it.link.toList, y ∈ owned h := by
        intro y hy
        simp only [owned, ht, List.cons_append, List.mem_cons]
        exact Or.inr hy
      subst hs
      refine ⟨c1, by simp only [c3]; exact hi.time, by simp only [c4]; exact hi.nxt, ?_, ?_, hnd.2, ?_, ?_, hi.asc, hi.upto, ?_, ?_, hi.fin⟩
      · intro x hx
        rw [c2]
        refine ⟨hi.keep x hx, ?_⟩
        have := hf0.2.1 x hx
        omega
      · intro x hx
        simp only at hx
        rw [c2] at hx
        rcases hi.only x hx.1 with hb | ho
        · exact Or.inl hb
        · simp only [owned, ht, List.cons_append, List.map_cons, List.mem_cons] at ho
          rcases ho with e | ho
          · exact absurd e hx.2
          · exact Or.inr ho
      · intro y hy
        obtain ⟨m1, id1, m2, m3⟩ := hi.new y (hsub y hy)
        refine ⟨m1, id1, m2, ?_⟩
        rw [c2]
        exact ⟨m3, hne y hy⟩
      · intro y hy
        obtain ⟨m1, m2⟩ := hi.cur y hy
        refine ⟨m1, ?_⟩
        rw [c2]
        exact ⟨m2, hne y (by simp at hy; simp [hy])⟩
      · simp only [c3]; exact hi.real
      · simp only [c3]; exact hi.all

theorem inv_run (k : Kern) (hk : Sorted k) (fuel : Nat) (s0 : S) (hf0 : Fine s0) : ∀ (ops : List Op) (h h' : H), Inv k s0 h → run k fuel h ops = some h' → Inv k s0 h' := by
  intro ops
  induction ops with
  | nil => intro h h' hi hr; simp [run] at hr; rw [← hr]; exact hi
  | cons o r ih =>
    intro h h' hi hr
    simp only [run, Option.bind_eq_some_iff] at hr
    obtain ⟨h1, hs, hr⟩ := hr
    exact ih h1 h' (inv_step k hk fuel s0 hf0 h h1 o hi hs) hr

theorem inv_start (k : Kern) (s : S) (hf : Fine s) : Inv k s (start s) := by
  refine ⟨hf, Nat.le_refl _, Nat.le_refl _, fun x hx => hx, fun x hx => Or.inl hx, by simp [owned, start], by simp [owned, start], by simp [start], by simp [start], by simp [start], by simp [start], ?_, by simp [start]⟩
  intro x hx _ hc
  simp [start] at hc
  omega

/-- **C88.** Iterating shows links in ascending order of their IDs, each at most once and with its Go type, shows only links there were, and, when Next has returned
false and there is no error, it has shown every link that existed all the time, no matter which other links came and went. -/
theorem iterate_complete (k : Kern) (hk : Sorted k) (fuel : Nat) (s : S) (hf : Fine s) (ops : List Op) (h : H) (hr : run k fuel (start s) ops = some h) :
    (h.seen.map (·.1)).Pairwise (· < ·) ∧
    (∀ id l, (id, l) ∈ h.seen → (∃ u, s.t ≤ u ∧ u < h.s.t ∧ id ∈ k.ids u) ∧ ∃ u, s.t ≤ u ∧ u < h.s.t ∧ l.cls = goType (k.typ u id)) ∧
    (h.finished = true → ∀ id, 0 < id → Lasting k s.t h.s.t id → id ∈ h.seen.map (·.1)) := by
  have hi := inv_run k hk fuel s hf ops _ h (inv_start k s hf) hr
  exact ⟨hi.asc, fun id l hm => hi.real (id, l) hm, fun hfin id hid hl => hi.all id hid hl (Or.inr hfin)⟩

/-- **C88.** While iterating, the process has one descriptor for each link taken (and not yet closed), one for the current link, and the ones it had before,
no others; no descriptor is closed twice. After Close, or once Next has returned false, only the links taken are left. -/
theorem iterate_fds (k : Kern) (hk : Sorted k) (fuel : Nat) (s : S) (hf : Fine s) (ops : List Op) (h : H) (hr : run k fuel (start s) ops = some h) :
    h.s.bad = false ∧ (iterClose h.s h.it).bad = false ∧
    (∀ l, l ∈ h.taken ∨ h.it.link = some l → ∃ id, (id, l) ∈ h.seen ∧ (l.fd, some id) ∈ h.s.fds) ∧
    ((h.taken ++ h.it.link.toList).map (·.fd)).Nodup ∧
    (∀ x ∈ s.fds, x ∈ (iterClose h.s h.it).fds) ∧
    (∀ x, x ∈ (iterClose h.s h.it).fds → x ∈ s.fds ∨ ∃ l ∈ h.taken, l.fd = x.1) ∧
    (∀ l ∈ h.taken, l.fd ∈ (iterClose h.s h.it).fds.map (·.1)) ∧
    (h.finished = true → ∀ x ∈ h.s.fds, x ∈ s.fds ∨ ∃ l ∈ h.taken, l.fd = x.1) := by
  have hi := inv_run k hk fuel s hf ops _ h (inv_start k s hf) hr
  obtain ⟨c1, c2, c3, c4⟩ := closeLink_spec h.s hi.fine h.it.link (fun l hl => List.mem_map.mpr ⟨_, (hi.cur l hl).2, rfl⟩)
  have hcl : ∀ x, x ∈ (closeLink h.s h.it.link).fds → x ∈ s.fds ∨ ∃ l ∈ h.taken, l.fd = x.1 := by
    intro x hx
    rw [c2] at hx
    rcases hi.only x hx.1 with hb | ho
    · exact Or.inl hb
    · simp only [owned, List.map_append, List.mem_append] at ho
      rcases ho with ho | ho
      · obtain ⟨l, hl, he⟩ := List.mem_map.mp ho; exact Or.inr ⟨l, hl, he⟩
      · obtain ⟨l, hl, he⟩ := List.mem_map.mp ho; exact absurd he.symm (hx.2 l (by simpa using hl))
  refine ⟨hi.fine.2.2, c1.2.2, ?_, hi.nodup, ?_, hcl, ?_, ?_⟩
  · intro l hl
    obtain ⟨_, id, h1, h2⟩ := hi.new l (by simp only [owned, List.mem_append]; rcases hl with hl | hl; exact Or.inl hl; exact Or.inr (by simp [hl]))
    exact ⟨id, h1, h2⟩
  · intro x hx
    simp only [iterClose]
    rw [c2]
    refine ⟨hi.keep x hx, fun y hy => ?_⟩
    have h1 := hf.2.1 x hx
    have h2 := (hi.new y (by simp [owned, hy])).1
    omega
  · intro l hl
    obtain ⟨_, id, _, h2⟩ := hi.new l (by simp [owned, hl])
    refine List.mem_map.mpr ⟨(l.fd, some id), ?_, rfl⟩
    simp only [iterClose]
    rw [c2]
    refine ⟨h2, fun y hy e => ?_⟩
    have := hi.nodup
    simp only [owned, List.map_append, List.nodup_append, hy, Option.toList_some, List.map_cons, List.map_nil] at this
    exact this.2.2 l.fd (List.mem_map.mpr ⟨l, hl, rfl⟩) y.fd (by simp) e
  · intro hfin x hx
    have he : closeLink h.s h.it.link = h.s := by rw [hi.fin hfin]; rfl
    rw [← he] at hx
    exact hcl x hx

/-- **C88.** Next always returns. -/
theorem next_returns (k : Kern) (hk : Sorted k) (b : Nat) (hb : ∀ t, ∀ x ∈ k.ids t, x < b) (s : S) (it : It) : next k (b + 1) s it ≠ none := by
  have := next_terminates k hk b hb (b + 1) s it.id (by omega)
  unfold next
  split <;> simp_all

theorem newFromID_ok (k : Kern) (hk : ∀ t, k.fail t = none) (s : S) (id : Nat) :
    (id ∈ k.ids s.t → ∃ s' l, newFromID k s id = (s', .ok l)) ∧ ∀ s' e, newFromID k s id = (s', .error e) → e = .noent := by
  unfold newFromID getFdById
  simp only [hk]
  by_cases hc : (k.ids s.t).contains id = true
  · simp only [hc, if_true, openFd, wrapRawLink, info, hk, List.lookup_cons_self]
    exact ⟨fun _ => ⟨_, _, rfl⟩, fun s' e hh => by simp at hh⟩
  · simp only [hc, Bool.false_eq_true, if_false]
    refine ⟨fun hm => absurd (by simpa using hm) hc, fun s' e hh => ?_⟩
    simp only [Prod.mk.injEq, Except.error.injEq] at hh
    exact hh.2.symm

theorem nextLoop_ok (k : Kern) (hk : ∀ t, k.fail t = none) : ∀ (n : Nat) (s s' : S) (id : Nat) (e : E), nextLoop k n s id ≠ some (s', .error (some e)) := by
  intro n
  induction n with
  | zero => intro s s' id e; simp [nextLoop]
  | succ n ih =>
    intro s s' id e
    unfold nextLoop
    cases hg : getNextId k s id with
    | mk s1 r =>
      cases r with
      | error e1 =>
        have : e1 = .noent := by
          simp only [getNextId, hk] at hg
          split at hg
          · simp at hg; exact hg.2.symm
          · simp at hg
        subst this
        simp
      | ok id1 =>
        simp only
        cases hn : newFromID k s1 id1 with
        | mk s2 r2 =>
          cases r2 with
          | error e2 =>
            have := (newFromID_ok k hk s1 id1).2 s2 e2 hn
            subst this
            exact ih s2 s' id1 e
          | ok l => simp

/-- **C88.** If no system call fails, a link that exists is opened, and iterating gives no error. -/
theorem succeeds (k : Kern) (hk : ∀ t, k.fail t = none) :
    (∀ s id, id ∈ k.ids s.t → ∃ s' l, newFromID k s id = (s', .ok l)) ∧
    (∀ fuel s ops h, run k fuel (start s) ops = some h → h.it.err = none) := by
  refine ⟨fun s id => (newFromID_ok k hk s id).1, fun fuel s ops h hr => ?_⟩
  have key : ∀ (ops : List Op) (h h' : H), h.it.err = none → run k fuel h ops = some h' → h'.it.err = none := by
    intro ops
    induction ops with
    | nil => intro h h' he hr; simp [run] at hr; rw [← hr]; exact he
    | cons o r ih =>
      intro h h' he hr
      simp only [run, Option.bind_eq_some_iff] at hr
      obtain ⟨h1, hs, hr⟩ := hr
      refine ih h1 h' ?_ hr
      cases o with
      | next =>
        simp only [step, next] at hs
        cases hl : nextLoop k fuel h.s h.it.id with
        | none => rw [hl] at hs; simp at hs
        | some y =>
          obtain ⟨s1, y⟩ := y
          rw [hl] at hs
          cases y with
          | ok y => obtain ⟨a, b⟩ := y; simp only [Option.some.injEq] at hs; rw [← hs]; exact he
          | error e =>
            cases e with
            | none => simp only [Option.some.injEq] at hs; rw [← hs]; exact he
            | some e => exact absurd hl (nextLoop_ok k hk _ _ _ _ _)
      | take => simp only [step, take, Option.some.injEq] at hs; rw [← hs]; exact he
      | drop =>
        simp only [step] at hs
        cases ht : h.taken with
        | nil => rw [ht] at hs; simp only [Option.some.injEq] at hs; rw [← hs]; exact he
        | cons l r => rw [ht] at hs; simp only [Option.some.injEq] at hs; rw [← hs]; exact he
  exact key ops _ h rfl hr

/-- Witness: three links, one of which disappears while iterating; the second is taken. -/
example :
    let k : Kern := ⟨fun t => if t < 4 then [3, 7, 9] else [3, 9], fun _ id => id, fun _ => none, fun _ => none⟩
    (run k 10 (start ⟨0, [(0, none)], 5, false⟩) [.next, .next, .take, .next]).map (fun h => (h.seen, h.s.fds, h.finished)) =
      some ([(3, ⟨.linkCgroup, 5⟩), (9, ⟨.structOps, 6⟩)], [(6, some 9), (0, none)], true) := rfl

end Ebpf.LinkIter
