import Verif.Model.Fd
/-! # C43: file descriptor ownership -/
namespace Ebpf.Sys.Fds

/-- What holds for object `i`: it is closed, or wraps a positive descriptor it is responsible for. -/
def ObjOk (owner : Nat → Owner) (i : Nat) (o : Obj) : Prop :=
  (o.raw = -1 ∧ o.cleanup = none) ∨ ∃ n : Nat, o.raw = n ∧ o.cleanup = some n ∧ owner n = .lib i

/-- Positivity is separate (it is violated inside `NewFD(0)`). -/
structure Inv0 (s : Fds) : Prop where
  obj : ∀ (i : Nat) (o : Obj), s.objs[i]? = some o → ObjOk s.owner i o
  own : ∀ (n i : Nat), s.owner n = .lib i → ∃ o : Obj, s.objs[i]? = some o ∧ o.raw = n
  log : ∀ c ∈ s.log, c.owner = .lib c.by_

theorem setOwner_self (s : Fds) (n : Nat) (o : Owner) : (s.setOwner n o).owner n = o := by simp [setOwner]
theorem setOwner_ne (s : Fds) (n m : Nat) (o : Owner) (h : m ≠ n) : (s.setOwner n o).owner m = s.owner m := by
  simp [setOwner, h]

/-- Changing the owner of a descriptor no object is responsible for, to something that is not an object. -/
theorem inv0_setOwner (s : Fds) (h : Inv0 s) (n : Nat) (o : Owner) (h1 : ∀ i, s.owner n ≠ .lib i) (h2 : ∀ i, o ≠ .lib i) :
    Inv0 (s.setOwner n o) := by
  refine ⟨?_, ?_, h.log⟩
  · intro i x hx
    rcases h.obj i x hx with hc | ⟨m, e1, e2, e3⟩
    · exact Or.inl hc
    · have : m ≠ n := by rintro rfl; exact h1 i e3
      exact Or.inr ⟨m, e1, e2, by rw [setOwner_ne _ _ _ _ this]; exact e3⟩
  · intro m i hm
    by_cases hmn : m = n
    · subst hmn; rw [setOwner_self] at hm; exact absurd hm (h2 i)
    · rw [setOwner_ne _ _ _ _ hmn] at hm; exact h.own m i hm

theorem inv0_newObj (s : Fds) (h : Inv0 s) (n : Nat) (h1 : ∀ i, s.owner n ≠ .lib i) : Inv0 (s.newObj n) := by
  refine ⟨?_, ?_, h.log⟩
  · intro i x hx
    simp only [newObj] at hx ⊢
    rw [List.getElem?_append] at hx
    split at hx
    · next hlt =>
      rcases h.obj i x hx with hc | ⟨m, e1, e2, e3⟩
      · exact Or.inl hc
      · have : m ≠ n := by rintro rfl; exact h1 i e3
        exact Or.inr ⟨m, e1, e2, by rw [setOwner_ne _ _ _ _ this]; exact e3⟩
    · next hge =>
      have hi : i = s.objs.length := by
        by_cases hi : i - s.objs.length = 0
        · omega
        · rw [List.getElem?_singleton, if_neg hi] at hx; cases hx
      subst hi
      simp at hx; subst hx
      exact Or.inr ⟨n, rfl, rfl, setOwner_self _ _ _⟩
  · intro m i hm
    simp only [newObj] at hm ⊢
    by_cases hmn : m = n
    · subst hmn
      rw [setOwner_self] at hm
      injection hm with hm; subst hm
      exact ⟨⟨m, some m, true⟩, by simp, rfl⟩
    · rw [setOwner_ne _ _ _ _ hmn] at hm
      obtain ⟨o, h2, h3⟩ := h.own m i hm
      have hlt : i < s.objs.length := by
        have := List.getElem?_eq_some_iff.1 h2; exact this.1
      exact ⟨o, by rw [List.getElem?_append_left hlt]; exact h2, h3⟩

/-- Closing an object: marks it closed and moves its descriptor to `free` or `ext`. -/
theorem inv0_release (s : Fds) (h : Inv0 s) (i : Nat) (x x' : Obj) (n : Nat) (o : Owner) (hx : s.objs[i]? = some x)
    (hn : x.raw = n) (h2 : ∀ j, o ≠ .lib j) (hx' : x'.raw = -1 ∧ x'.cleanup = none) :
    Inv0 ({ s with objs := s.objs.set i x' }.setOwner n o) := by
  have hlt : i < s.objs.length := (List.getElem?_eq_some_iff.1 hx).1
  have hown : s.owner n = .lib i := by
    rcases h.obj i x hx with ⟨hc, _⟩ | ⟨m, e1, _, e3⟩
    · omega
    · have : m = n := by omega
      exact this ▸ e3
  refine ⟨?_, ?_, h.log⟩
  · intro j y hy
    simp only [setOwner] at hy ⊢
    by_cases hj : j = i
    · subst hj; rw [List.getElem?_set_self hlt] at hy; injection hy with hy; subst hy; exact Or.inl hx'
    · rw [List.getElem?_set_ne (fun e => hj e.symm)] at hy
      rcases h.obj j y hy with hc | ⟨m, e1, e2, e3⟩
      · exact Or.inl hc
      · have : m ≠ n := by
          rintro rfl; rw [hown] at e3; injection e3 with e3; exact hj e3.symm
        exact Or.inr ⟨m, e1, e2, by simpa [this] using e3⟩
  · intro m j hm
    simp only [setOwner] at hm ⊢
    by_cases hmn : m = n
    · simp [hmn] at hm; exact absurd hm (h2 j)
    · simp [hmn] at hm
      obtain ⟨y, h3, h4⟩ := h.own m j hm
      have hj : j ≠ i := by
        rintro rfl; rw [hx] at h3; injection h3 with h3; subst h3; omega
      exact ⟨y, by rw [List.getElem?_set_ne (fun e => hj e.symm)]; exact h3, h4⟩

theorem inv0_sysClose (s : Fds) (h : Inv0 s) (i : Nat) (x x' : Obj) (n : Nat) (hx : s.objs[i]? = some x)
    (hn : x.raw = n) (hx' : x'.raw = -1 ∧ x'.cleanup = none) :
    Inv0 ({ s with objs := s.objs.set i x' }.sysClose i n) := by
  have hr := inv0_release s h i x x' n .free hx hn (by simp) hx'
  have hown : s.owner n = .lib i := by
    rcases h.obj i x hx with ⟨hc, _⟩ | ⟨m, e1, _, e3⟩
    · omega
    · have : m = n := by omega
      exact this ▸ e3
  refine ⟨hr.obj, hr.own, ?_⟩
  intro c hc
  simp only [sysClose, List.mem_cons] at hc
  rcases hc with rfl | hc
  · exact hown
  · exact h.log c hc

theorem inv0_close (s : Fds) (h : Inv0 s) (i : Nat) : Inv0 (s.close i) := by
  unfold close
  cases hx : s.objs[i]? with
  | none => exact h
  | some o =>
    dsimp only
    split
    · exact h
    · next hneg =>
      exact inv0_sysClose s h i o _ o.raw.toNat hx (by omega) ⟨rfl, rfl⟩

theorem inv0_dup (s : Fds) (h : Inv0 s) (i : Nat) (ans : Option Nat) : Inv0 (s.dup i ans).2 := by
  unfold dup
  cases s.objs[i]? with
  | none => exact h
  | some o =>
    dsimp only
    split
    · exact h
    · unfold dupAnswer
      cases ans with
      | none => exact h
      | some m =>
        dsimp only
        by_cases hm : 1 ≤ m ∧ s.owner m = .free
        · rw [if_pos hm]; exact inv0_newObj s h m (by rw [hm.2]; simp)
        · rw [if_neg hm]; exact h

theorem inv0_modify (s : Fds) (h : Inv0 s) (i : Nat) :
    Inv0 { s with objs := s.objs.modify i fun o => { o with reachable := false } } := by
  refine ⟨?_, ?_, h.log⟩
  · intro j y hy
    simp only [List.getElem?_modify] at hy
    cases hj : s.objs[j]? with
    | none => rw [hj] at hy; cases hy
    | some o =>
      rw [hj] at hy
      have := h.obj j o hj
      simp only [Option.map_eq_map, Option.map_some, Option.some.injEq] at hy
      split at hy <;> subst hy <;> exact this
  · intro n j hn
    obtain ⟨o, h1, h2⟩ := h.own n j hn
    simp only [List.getElem?_modify, h1, Option.map_eq_map, Option.map_some]
    refine ⟨_, rfl, ?_⟩
    split <;> exact h2

/-- Positivity of all objects, preserved separately. -/
def Pos (s : Fds) : Prop := ∀ (i : Nat) (o : Obj), s.objs[i]? = some o → o.raw ≠ 0

theorem pos_set (l : List Obj) (i : Nat) (x : Obj) (hx : x.raw ≠ 0)
    (h : ∀ (j : Nat) (o : Obj), l[j]? = some o → o.raw ≠ 0) :
    ∀ (j : Nat) (o : Obj), (l.set i x)[j]? = some o → o.raw ≠ 0 := by
  intro j o hj
  rw [List.getElem?_set] at hj
  split at hj
  · split at hj
    · injection hj with hj; subst hj; exact hx
    · cases hj
  · exact h j o hj

theorem pos_close (s : Fds) (h : Pos s) (i : Nat) : Pos (s.close i) := by
  unfold close
  cases s.objs[i]? with
  | none => exact h
  | some o =>
    dsimp only
    split
    · exact h
    · exact pos_set _ _ _ (by simp) h

theorem pos_append (s : Fds) (n : Nat) (hn : n ≠ 0) (h : Pos s) : Pos (s.newObj n) := by
  intro i o hi
  simp only [newObj, List.getElem?_append] at hi
  split at hi
  · exact h i o hi
  · rw [List.getElem?_singleton] at hi
    split at hi
    · injection hi with hi; subst hi; simpa using hn
    · cases hi

theorem pos_dup (s : Fds) (h : Pos s) (i : Nat) (ans : Option Nat) : Pos (s.dup i ans).2 := by
  unfold dup
  cases s.objs[i]? with
  | none => exact h
  | some o =>
    dsimp only
    split
    · exact h
    · unfold dupAnswer
      cases ans with
      | none => exact h
      | some m =>
        dsimp only
        by_cases hm : 1 ≤ m ∧ s.owner m = .free
        · rw [if_pos hm]; exact pos_append s m (by omega) h
        · rw [if_neg hm]; exact h

theorem pos_modify (s : Fds) (h : Pos s) (i : Nat) :
    Pos { s with objs := s.objs.modify i fun o => { o with reachable := false } } := by
  intro j y hy
  simp only [List.getElem?_modify] at hy
  cases hj : s.objs[j]? with
  | none => rw [hj] at hy; cases hy
  | some o =>
    rw [hj] at hy
    have := h j o hj
    simp only [Option.map_eq_map, Option.map_some, Option.some.injEq] at hy
    split at hy <;> subst hy <;> exact this

/-- All objects but the one at `k` are positive. -/
def PosBut (k : Nat) (s : Fds) : Prop := ∀ (i : Nat) (o : Obj), s.objs[i]? = some o → i ≠ k → o.raw ≠ 0

theorem pos_newFD0 (s : Fds) (h : Pos s) (ans : Option Nat) : Pos (s.newFD 0 ans).2 := by
  unfold newFD
  simp only [Int.lt_irrefl, if_false, ne_eq, not_true_eq_false, Int.toNat_zero]
  generalize hk : s.objs.length = k
  apply pos_modify
  -- after newObj 0 everything but k is positive and k wraps 0
  have hobj : ∀ (i : Nat) (o : Obj), (s.newObj 0).objs[i]? = some o → (i ≠ k → o.raw ≠ 0) ∧ (i = k → o.raw = 0) := by
    intro i o hi
    simp only [newObj, List.getElem?_append] at hi
    split at hi
    · exact ⟨fun _ => h i o hi, fun e => by omega⟩
    · rw [List.getElem?_singleton] at hi
      split at hi
      · injection hi with hi; subst hi; exact ⟨fun e => by omega, fun _ => rfl⟩
      · cases hi
  have hlen : (s.newObj 0).objs.length = k + 1 := by simp [newObj, hk]
  have hdup : ∀ (i : Nat) (o : Obj), ((s.newObj 0).dup k ans).2.objs[i]? = some o →
      (i ≠ k → o.raw ≠ 0) ∧ (i = k → o.raw = 0) := by
    unfold dup
    cases hko : (s.newObj 0).objs[k]? with
    | none => exact hobj
    | some ok =>
      dsimp only
      split
      · exact hobj
      · unfold dupAnswer
        cases ans with
        | none => exact hobj
        | some m =>
          dsimp only
          by_cases hm : 1 ≤ m ∧ (s.newObj 0).owner m = .free
          · rw [if_pos hm]
            intro i o hi
            have hi : ((s.newObj 0).objs ++ [⟨m, some m, true⟩])[i]? = some o := hi
            rw [List.getElem?_append] at hi
            split at hi
            · exact hobj i o hi
            · rw [List.getElem?_singleton] at hi
              split at hi
              · injection hi with hi; subst hi
                exact ⟨fun _ => by simp; omega, fun e => by omega⟩
              · cases hi
          · rw [if_neg hm]; exact hobj
  generalize hs2 : ((s.newObj 0).dup k ans).2 = s2 at hdup ⊢
  intro i o hi
  unfold close at hi
  cases hko : s2.objs[k]? with
  | none =>
    rw [hko] at hi
    by_cases hik : i = k
    · subst hik; rw [hko] at hi; cases hi
    · exact (hdup i o hi).1 hik
  | some ok =>
    rw [hko] at hi
    dsimp only at hi
    have hz := (hdup k ok hko).2 rfl
    rw [if_neg (by omega)] at hi
    simp only [sysClose, setOwner] at hi
    rw [List.getElem?_set] at hi
    split at hi
    · split at hi
      · injection hi with hi; subst hi; simp
      · cases hi
    · next hne => exact (hdup i o hi).1 (fun e => hne e.symm)

theorem inv_step (s : Fds) (h : Inv0 s ∧ Pos s) (op : Op) : Inv0 (s.step op) ∧ Pos (s.step op) := by
  obtain ⟨h, hp⟩ := h
  cases op with
  | extOpen n =>
    simp only [step]
    split
    · next hf => exact ⟨inv0_setOwner s h n .ext (by rw [hf]; simp) (by simp), hp⟩
    · exact ⟨h, hp⟩
  | extClose n =>
    simp only [step]
    split
    · next hf => exact ⟨inv0_setOwner s h n .free (by rw [hf]; simp) (by simp), hp⟩
    · exact ⟨h, hp⟩
  | newFD v ans =>
    simp only [step]
    split
    · next hg =>
      by_cases hneg : v < 0
      · simp only [newFD, if_pos hneg]; exact ⟨h, hp⟩
      · have hext : s.owner v.toNat = .ext := hg.resolve_left hneg
        have hn := inv0_newObj s h v.toNat (by rw [hext]; simp)
        by_cases hz : v = 0
        · subst hz
          refine ⟨?_, pos_newFD0 s hp ans⟩
          simp only [newFD, Int.lt_irrefl, if_false, ne_eq, not_true_eq_false]
          exact inv0_modify _ (inv0_close _ (inv0_dup _ hn _ _) _) _
        · simp only [newFD, if_neg hneg, ne_eq, hz, not_false_eq_true, if_true]
          exact ⟨hn, pos_append s _ (by omega) hp⟩
    · exact ⟨h, hp⟩
  | close i =>
    simp only [step]
    split
    · exact ⟨inv0_close s h i, pos_close s hp i⟩
    · exact ⟨h, hp⟩
  | disown i =>
    simp only [step]
    split
    · unfold disown
      cases hx : s.objs[i]? with
      | none => exact ⟨h, hp⟩
      | some o =>
        dsimp only
        split
        · next hr =>
          exact ⟨inv0_release s h i o _ o.raw.toNat .ext hx (by omega) (by simp) ⟨rfl, rfl⟩, pos_set _ _ _ (by simp) hp⟩
        · next hr =>
          have ho : o.raw = -1 ∧ o.cleanup = none := by
            rcases h.obj i o hx with hc | ⟨m, e1, _⟩
            · exact hc
            · omega
          have : s.objs.set i { o with raw := -1, cleanup := none } = s.objs := by
            have e : ({ o with raw := -1, cleanup := none } : Obj) = o := by
              rcases o with ⟨r, c, b⟩; simp at ho; simp [ho.1, ho.2]
            rw [e]
            apply List.ext_getElem?
            intro j
            rw [List.getElem?_set]
            split
            · next hij => subst hij; rw [if_pos (List.getElem?_eq_some_iff.1 hx).1, hx]
            · rfl
          rw [this]; exact ⟨h, hp⟩
    · exact ⟨h, hp⟩
  | dup i ans =>
    simp only [step]
    split
    · exact ⟨inv0_dup s h i ans, pos_dup s hp i ans⟩
    · exact ⟨h, hp⟩
  | file i =>
    simp only [step]
    split
    · unfold file
      cases hx : s.objs[i]? with
      | none => exact ⟨h, hp⟩
      | some o =>
        dsimp only
        split
        · exact ⟨h, hp⟩
        · next hne =>
          have hr : o.raw ≥ 0 := by
            rcases h.obj i o hx with ⟨hc, _⟩ | ⟨m, e1, _⟩
            · exact absurd hc hne
            · omega
          unfold disown
          rw [hx]
          dsimp only
          rw [if_pos hr]
          exact ⟨inv0_release s h i o _ o.raw.toNat .ext hx (by omega) (by simp) ⟨rfl, rfl⟩, pos_set _ _ _ (by simp) hp⟩
    · exact ⟨h, hp⟩
  | drop i => exact ⟨inv0_modify s h i, pos_modify s hp i⟩
  | gc i =>
    simp only [step, gc]
    cases hx : s.objs[i]? with
    | none => exact ⟨h, hp⟩
    | some o =>
      dsimp only
      split
      · next n _ hc =>
        have hn : o.raw = n := by
          rcases h.obj i o hx with ⟨_, h2⟩ | ⟨m, e1, e2, _⟩
          · rw [h2] at hc; cases hc
          · rw [e2] at hc; injection hc with hc; subst hc; exact e1
        exact ⟨inv0_sysClose s h i o _ n hx hn ⟨rfl, rfl⟩, pos_set _ _ _ (by simp) hp⟩
      · exact ⟨h, hp⟩

theorem run_inv (isOpen : Nat → Bool) (ops : List Op) : Inv0 ((init isOpen).run ops) ∧ Pos ((init isOpen).run ops) := by
  have h0 : Inv0 (init isOpen) ∧ Pos (init isOpen) := by
    refine ⟨⟨by simp [init], ?_, by simp [init]⟩, by simp [Pos, init]⟩
    intro n i hn
    simp only [init] at hn
    split at hn <;> cases hn
  unfold run
  generalize init isOpen = s at h0 ⊢
  induction ops generalizing s with
  | nil => exact h0
  | cons o os ih => exact ih _ (inv_step s h0 o)

/-- **C43**, closing: in every history, each `close(2)` the library issues hits a descriptor for which
the object issuing it was responsible at that moment: never a descriptor that was already closed, never
one given away with `Disown` or `File`, never one of another object or of outside code. -/
theorem close_only_owned (isOpen : Nat → Bool) (ops : List Op) :
    ∀ c ∈ ((init isOpen).run ops).log, c.owner = .lib c.by_ :=
  (run_inv isOpen ops).1.log

/-- **C43**, values: after every history, an `FD` object is either closed/disowned (−1) or wraps a
descriptor ≥ 1 for which it is solely responsible. -/
theorem fd_positive (isOpen : Nat → Bool) (ops : List Op) (i : Nat) (o : Obj)
    (h : ((init isOpen).run ops).objs[i]? = some o) :
    o.raw = -1 ∨ ∃ n : Nat, 1 ≤ n ∧ o.raw = n ∧ ((init isOpen).run ops).owner n = .lib i := by
  obtain ⟨hi, hp⟩ := run_inv isOpen ops
  rcases hi.obj i o h with ⟨h1, _⟩ | ⟨n, h1, _, h3⟩
  · exact Or.inl h1
  · refine Or.inr ⟨n, ?_, h1, h3⟩
    have := hp i o h
    omega

/-- **C43**, no sharing and no leak: every descriptor the library is responsible for is wrapped by an
object that will close it: the object still has its cleanup registered. -/
theorem owned_has_cleanup (isOpen : Nat → Bool) (ops : List Op) (n i : Nat)
    (h : ((init isOpen).run ops).owner n = .lib i) :
    ∃ o, ((init isOpen).run ops).objs[i]? = some o ∧ o.raw = n ∧ o.cleanup = some n := by
  obtain ⟨hi, _⟩ := run_inv isOpen ops
  obtain ⟨o, h1, h2⟩ := hi.own n i h
  refine ⟨o, h1, h2, ?_⟩
  rcases hi.obj i o h1 with ⟨h3, _⟩ | ⟨m, h3, h4, _⟩
  · omega
  · have : m = n := by omega
    exact this ▸ h4

/-- `Close` is idempotent: closing a closed object issues no system call. -/
theorem close_closed (s : Fds) (i : Nat) (o : Obj) (h : s.objs[i]? = some o) (hr : o.raw = -1) : s.close i = s := by
  simp [close, h, hr]

/-- Non-vacuity: wrapping descriptor 0 duplicates it to 5 and closes 0; then Dup, Close, Close, Disown. -/
def sampleOps : List Op :=
  [.extOpen 0, .newFD 0 (some 5), .dup 1 (some 0), .dup 1 (some 6), .close 1, .close 1, .disown 2, .drop 2, .gc 2]

example : ((init fun _ => false).run sampleOps).log = [⟨1, 5, .lib 1⟩, ⟨0, 0, .lib 0⟩] ∧
    ((init fun _ => false).run sampleOps).owner 6 = .ext ∧ ((init fun _ => false).run sampleOps).owner 0 = .free := by
  decide

end Ebpf.Sys.Fds
