import Verif.Model.Rlimit
/-! # C98: removing the limit on locked memory -/
namespace Ebpf.Rlimit

/-- A kernel which has tokens (6.9) has cgroup accounting (5.11). -/
def Law (kn : Kernel) : Prop := kn.tokenDenies = true → kn.memcg = true

/-- A limit of a process. -/
def Valid (l : Lim) : Prop := l.cur ≤ l.max ∧ l.max ≤ infinity

theorem mapCreate_lim (kn : Kernel) (p : Proc) : (mapCreate kn p).2.lim = p.lim ∧ (mapCreate kn p).2.fds = p.fds + (if (mapCreate kn p).1 = .ok () then 1 else 0) := by
  unfold mapCreate
  repeat' split
  all_goals simp_all

theorem setLimit_some (kn : Kernel) (l : Lim) (p : Proc) (h1 : l.cur ≤ l.max) (h2 : l.max ≤ p.lim.max) : setLimit kn l p = some { p with lim := l } := by
  unfold setLimit
  rw [if_pos ⟨h1, .inl h2⟩]

/-- The test as a whole, if nobody changes the hard limit meanwhile. -/
theorem detect_eq (kn : Kernel) (env : Lim → Lim) (p : Proc) (he : Valid (env p.lim)) (hm : (env p.lim).max = p.lim.max) :
    detect kn env p = ((match (mapCreate kn { p with lim := ⟨0, p.lim.max⟩ }).1 with
      | .ok () => .supported | .error .token => .supported | .error .eperm => .unsupported | .error .other => .failed), { p with lim := env p.lim }) := by
  unfold detect
  dsimp only
  rw [setLimit_some kn ⟨0, p.lim.max⟩ { p with lim := env p.lim } (Nat.zero_le _) (by dsimp only; omega)]
  dsimp only
  obtain ⟨h1, h2⟩ := mapCreate_lim kn { lim := ⟨0, p.lim.max⟩, fds := p.fds }
  generalize mapCreate kn { lim := ⟨0, p.lim.max⟩, fds := p.fds } = q at h1 h2 ⊢
  obtain ⟨r, p2⟩ := q
  dsimp only at h1 h2 ⊢
  rw [setLimit_some kn (env p.lim) p2 he.1 (by rw [h1]; dsimp only; omega)]
  dsimp only
  match r, h2 with
  | .ok (), h2 => simp at h2; simp [h2]
  | .error .token, h2 => simp at h2; simp [h2]
  | .error .eperm, h2 => simp at h2; simp [h2]
  | .error .other, h2 => simp at h2; simp [h2]

/-- **C98.** Importing the package leaves the process's limits and its descriptors as they are, even if others change the soft limit meanwhile, and even without privileges. -/
theorem detect_restores (kn : Kernel) (env : Lim → Lim) (p : Proc) (he : Valid (env p.lim)) (hm : (env p.lim).max = p.lim.max) :
    (detect kn env p).2 = { p with lim := env p.lim } := by
  rw [detect_eq kn env p he hm]

/-- Whatever others do to the limits: an old kernel is never taken for a new one. -/
theorem detect_old (kn : Kernel) (hl : Law kn) (env : Lim → Lim) (p : Proc) (h1 : kn.memcg = false) : (detect kn env p).1 ≠ .supported := by
  have ht : kn.tokenDenies = false := by
    rcases hb : kn.tokenDenies with _ | _
    · rfl
    · have := hl hb; rw [h1] at this; cases this
  unfold detect
  dsimp only
  split
  · simp
  · rename_i p1 hs
    have hc : p1.lim.cur = 0 := by
      unfold setLimit at hs
      split at hs <;> cases hs
      rfl
    have key : mapCreate kn p1 = (.error .eperm, p1) := by
      unfold mapCreate
      rw [ht, h1, hc]
      cases kn.mayCreate <;> simp
    rw [key]
    dsimp only
    split <;> simp

/-- **C98.** If `RemoveMemlock` returns nil, locked memory doesn't limit maps: either the kernel accounts memory to the cgroup, or there is no limit. Whatever others do to the limits
while the package is initialised. -/
theorem remove_nil (kn : Kernel) (hl : Law kn) (env : Lim → Lim) (p q : Proc) (h : (removeMemlock kn (detect kn env p).1 q).1 = true) :
    kn.memcg = true ∨ (removeMemlock kn (detect kn env p).1 q).2.lim = ⟨2 ^ 64 - 1, 2 ^ 64 - 1⟩ := by
  by_cases hmc : kn.memcg = true
  · exact .inl hmc
  · right
    have hs := detect_old kn hl env p (by simpa using hmc)
    generalize (detect kn env p).1 = d at h hs ⊢
    cases d with
    | supported => exact absurd rfl hs
    | failed => unfold removeMemlock at h; cases h
    | unsupported =>
      unfold removeMemlock setLimit at h ⊢
      dsimp only at h ⊢
      split at h
      · cases h
      · rename_i h1
        split at h1 <;> cases h1
        rfl

/-- **C98.** On a kernel with cgroup accounting which lets the process create maps (or whose token excludes arrays only), `RemoveMemlock` does nothing and succeeds. -/
theorem remove_noop_partial (kn : Kernel) (env : Lim → Lim) (p q : Proc) (he : Valid (env p.lim)) (hm : (env p.lim).max = p.lim.max)
    (h1 : kn.memcg = true) (h2 : kn.mayCreate = true ∨ kn.tokenDenies = true) (h3 : kn.failsOtherwise = false) : removeMemlock kn (detect kn env p).1 q = (true, q) := by
  rw [detect_eq kn env p he hm]
  dsimp only
  unfold mapCreate
  rw [h1, h3]
  rcases h2 with h2 | h2
  · rw [h2]
    cases kn.tokenDenies <;> simp [removeMemlock]
  · rw [h2]; simp [removeMemlock]

/-- **C98.** On an older kernel it removes the limit if that is permitted, and fails without effect otherwise. -/
theorem remove_old (kn : Kernel) (hl : Law kn) (env : Lim → Lim) (p q : Proc) (he : Valid (env p.lim)) (hm : (env p.lim).max = p.lim.max)
    (h1 : kn.memcg = false) (hq : Valid q.lim) :
    removeMemlock kn (detect kn env p).1 q = if kn.mayRaise = true ∨ q.lim.max = 2 ^ 64 - 1 then (true, { q with lim := ⟨2 ^ 64 - 1, 2 ^ 64 - 1⟩ }) else (false, q) := by
  have ht : kn.tokenDenies = false := by
    rcases hb : kn.tokenDenies with _ | _
    · rfl
    · have := hl hb; rw [h1] at this; cases this
  rw [detect_eq kn env p he hm]
  dsimp only
  have key : (mapCreate kn { p with lim := ⟨0, p.lim.max⟩ }).1 = .error .eperm := by
    unfold mapCreate
    rw [ht, h1]
    cases kn.mayCreate <;> simp
  rw [key]
  dsimp only
  unfold removeMemlock setLimit
  dsimp only
  have hqm := hq.2
  have hi : infinity = 2 ^ 64 - 1 := rfl
  by_cases hc : kn.mayRaise = true ∨ q.lim.max = 2 ^ 64 - 1
  · rw [if_pos hc, if_pos ⟨Nat.le_refl _, by
      rcases hc with hc | hc
      · exact .inr hc
      · exact .inl (by omega)⟩]
    rfl
  · rw [if_neg hc, if_neg (by
      rintro ⟨_, h | h⟩
      · exact hc (.inr (by omega))
      · exact hc (.inl h))]

/-- **C98.** A process which may not create maps takes a newer kernel for an old one: `RemoveMemlock` isn't the no-op it is documented to be there. It raises the limit, or fails. -/
theorem remove_misjudges : ∃ kn p, Law kn ∧ Valid p.lim ∧ kn.memcg = true ∧ kn.mayRaise = true ∧ (removeMemlock kn (detect kn id p).1 p).2 ≠ p ∧
    (removeMemlock { kn with mayRaise := false } (detect { kn with mayRaise := false } id p).1 p).1 = false := by
  refine ⟨⟨true, false, false, true, false⟩, ⟨⟨65536, 65536⟩, 3⟩, fun h => (by cases h), ⟨by decide, by decide⟩, rfl, rfl, by decide, by decide⟩

/-- **C98.** If the hard limit is raised between the first two calls, an unprivileged process can't get it back, and the map stays open. -/
theorem restore_fails : ∃ kn env p, Law kn ∧ Valid p.lim ∧ Valid (env p.lim) ∧ (detect kn env p).2.lim.cur = 0 ∧ (detect kn env p).2.fds = p.fds + 1 := by
  refine ⟨⟨true, true, false, false, false⟩, fun l => ⟨l.cur, l.max + 4096⟩, ⟨⟨65536, 65536⟩, 3⟩, fun h => (by cases h), ⟨by decide, by decide⟩, ⟨by decide, by decide⟩, by decide, by decide⟩

example : ∃ (kn : Kernel) (p : Proc), Law kn ∧ Valid p.lim ∧ kn.memcg = false ∧ (removeMemlock kn (detect kn id p).1 p) = (true, ⟨⟨2 ^ 64 - 1, 2 ^ 64 - 1⟩, 3⟩) :=
  ⟨⟨false, true, false, true, false⟩, ⟨⟨65536, 65536⟩, 3⟩, fun h => (by cases h), ⟨by decide, by decide⟩, rfl, by decide⟩

end Ebpf.Rlimit
