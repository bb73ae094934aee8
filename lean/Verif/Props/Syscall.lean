import Verif.Spec.Syscall
/-!
# C84: the system call wrapper
-/
namespace Ebpf.Sysc
open Ebpf.SyscSpec

/-! ## Bits -/

theorem bit_eq (m n : Nat) (h : m < 2 ^ 64) : bit m n = m.testBit n := by
  unfold bit
  rw [Nat.one_shiftLeft]
  by_cases hn : n < 64
  · rw [Nat.mod_eq_of_lt (Nat.pow_lt_pow_right (by omega) hn)]
    cases ht : m.testBit n with
    | true =>
      have : (m &&& 2 ^ n) ≠ 0 := by
        intro h
        have h2 : (m &&& 2 ^ n).testBit n = true := by rw [Nat.testBit_and, ht, Nat.testBit_two_pow_self]; rfl
        rw [h, Nat.zero_testBit] at h2
        cases h2
      simpa using this
    | false =>
      have : (m &&& 2 ^ n) = 0 := by
        apply Nat.eq_of_testBit_eq
        intro i
        rw [Nat.testBit_and, Nat.testBit_two_pow, Nat.zero_testBit]
        by_cases h : n = i
        · subst h; rw [ht]; rfl
        · simp [h]
      simp [this]
  · have h1 : 2 ^ n % 2 ^ 64 = 0 := by
      apply Nat.mod_eq_zero_of_dvd
      exact Nat.pow_dvd_pow 2 (by omega)
    rw [h1, Nat.and_zero, Nat.testBit_lt_two_pow (Nat.lt_of_lt_of_le h (Nat.pow_le_pow_right (by omega) (by omega)))]
    rfl

theorem capable_iff (t : Token) (i : TokenInfo) (ht : t.info = some i) (hf : Fits i) (cmd : Nat) (attr : Attr) : capable t cmd attr = true ↔ Allowed i cmd attr := by
  unfold capable Allowed
  rw [ht]
  simp only
  rw [bit_eq _ _ hf.1, bit_eq _ _ hf.2.1, bit_eq _ _ hf.2.2.1, bit_eq _ _ hf.2.2.2]
  by_cases hc : i.cmds.testBit cmd = false
  · rw [if_pos hc]
    simp [hc]
  · rw [if_neg hc]
    have hc : i.cmds.testBit cmd = true := by simpa using hc
    by_cases h0 : cmd = 0
    · subst h0; simp [hc]
    · rw [if_neg h0]
      by_cases h5 : cmd = 5
      · subst h5; simp [hc]
      · rw [if_neg h5]; simp [hc, h0, h5]

/-! ## Tokens -/

/-- What looking for a token leaves alone. -/
structure Kept (s s' : St) : Prop where
  locked : s'.locked = s.locked
  prof : s'.prof = s.prof
  cache : s'.cache = s.cache
  next : s.next ≤ s'.next
  log : ∃ l, s'.log = s.log ++ l ∧ ∀ x ∈ l, x.1 = 36 ∨ x.1 = 15

theorem Kept.refl (s : St) : Kept s s := ⟨rfl, rfl, rfl, Nat.le_refl _, [], by simp, by simp⟩

theorem Kept.trans {a b c : St} (h1 : Kept a b) (h2 : Kept b c) : Kept a c := by
  obtain ⟨l1, e1, m1⟩ := h1.log
  obtain ⟨l2, e2, m2⟩ := h2.log
  refine ⟨by rw [h2.locked, h1.locked], by rw [h2.prof, h1.prof], by rw [h2.cache, h1.cache], Nat.le_trans h1.next h2.next, l1 ++ l2, by rw [e2, e1, List.append_assoc], ?_⟩
  intro x hx
  rcases List.mem_append.mp hx with h | h
  · exact m1 x h
  · exact m2 x h

theorem newToken_spec (m : Mnt) (s : St) : ∃ s', Kept s s' ∧
    ((∃ e, outcome m = .error e ∧ newToken m s = (s', .error e) ∧ s'.fds = s.fds) ∨
     (∃ i fd, outcome m = .ok i ∧ newToken m s = (s', .ok ⟨fd, i⟩) ∧ s'.fds = fd :: s.fds ∧ s.next ≤ fd)) := by
  unfold newToken outcome
  cases h1 : m.open_ with
  | some e => exact ⟨s, Kept.refl s, .inl ⟨e, rfl, rfl, rfl⟩⟩
  | none =>
    cases h2 : m.create with
    | some e =>
      refine ⟨_, ?_, .inl ⟨e, rfl, rfl, ?_⟩⟩
      · exact ⟨rfl, rfl, rfl, Nat.le_succ _, _, rfl, by simp⟩
      · simp [St.close, St.sysc, St.open_]
    | none =>
      have hk : ∀ f, Kept s { (((s.open_.sysc 36 (plain s.next)).open_).sysc 15 (plain (s.next + 1))) with fds := f } := fun f =>
        ⟨rfl, rfl, rfl, by simp [St.sysc, St.open_]; omega, [(36, plain s.next, s.prof), (15, plain (s.next + 1), s.prof)], by simp [St.sysc, St.open_], by simp⟩
      have e1 : ((s.next + 1) :: s.next :: s.fds).erase s.next = (s.next + 1) :: s.fds := by
        rw [List.erase_cons_tail (by simp), List.erase_cons_head]
      cases h3 : m.info with
      | ok i => exact ⟨_, hk _, .inr ⟨some i, s.next + 1, rfl, rfl, e1, Nat.le_succ _⟩⟩
      | error e =>
        simp only
        by_cases h22 : e = 22
        · rw [if_pos h22, if_pos h22]
          exact ⟨_, hk _, .inr ⟨none, s.next + 1, rfl, rfl, e1, Nat.le_succ _⟩⟩
        · rw [if_neg h22, if_neg h22]
          refine ⟨_, hk _, .inl ⟨e, rfl, rfl, ?_⟩⟩
          simp [St.close, St.sysc, St.open_]

theorem skip_iff (e : Nat) : skip e = true ↔ e ∈ [13, 22, 1, 95, 2] := by
  simp [skip, or_assoc]

/-- What looking for a token gives. -/
def Found (l : List Mnt) (s s' : St) (r : Except Nat (Option Token)) : Prop :=
  match r with
  | .ok none => (∀ m ∈ l, Skipped m) ∧ s'.fds = s.fds
  | .ok (some t) => ∃ pre m post, l = pre ++ m :: post ∧ (∀ m ∈ pre, Skipped m) ∧ outcome m = .ok t.info ∧ s'.fds = t.fd :: s.fds ∧ s.next ≤ t.fd
  | .error e => ∃ pre m post, l = pre ++ m :: post ∧ (∀ m ∈ pre, Skipped m) ∧ outcome m = .error e ∧ ¬ Skipped m ∧ s'.fds = s.fds

theorem findLoop_spec (l : List Mnt) (s : St) : Kept s (findLoop l s).1 ∧ Found l s (findLoop l s).1 (findLoop l s).2 := by
  induction l generalizing s with
  | nil => exact ⟨Kept.refl s, by simp [findLoop, Found]⟩
  | cons m r ih =>
    unfold findLoop
    obtain ⟨s', hk, ⟨e, ho, hn, hf⟩ | ⟨i, fd, ho, hn, hf, hle⟩⟩ := newToken_spec m s
    · rw [hn]
      simp only
      by_cases hs : skip e = true
      · have hsk : Skipped m := ⟨e, ho, (skip_iff e).mp hs⟩
        rw [if_pos hs]
        obtain ⟨h1, h2⟩ := ih s'
        refine ⟨hk.trans h1, ?_⟩
        revert h2
        generalize (findLoop r s').2 = res
        intro h2
        cases res with
        | error x =>
          obtain ⟨pre, m', post, h3, h4, h5, h6, h7⟩ := h2
          exact ⟨m :: pre, m', post, by rw [h3]; rfl, fun x hx => (List.mem_cons.mp hx).elim (fun h => h ▸ hsk) (h4 x), h5, h6, by rw [h7, hf]⟩
        | ok o =>
          cases o with
          | none =>
            obtain ⟨h3, h4⟩ := h2
            exact ⟨fun x hx => (List.mem_cons.mp hx).elim (fun h => h ▸ hsk) (h3 x), by rw [h4, hf]⟩
          | some t =>
            obtain ⟨pre, m', post, h3, h4, h5, h6, h7⟩ := h2
            exact ⟨m :: pre, m', post, by rw [h3]; rfl, fun x hx => (List.mem_cons.mp hx).elim (fun h => h ▸ hsk) (h4 x), h5, by rw [h6, hf], Nat.le_trans hk.next h7⟩
      · rw [if_neg hs]
        refine ⟨hk, [], m, r, rfl, (by simp), ho, ?_, hf⟩
        rintro ⟨e', h1, h2⟩
        rw [ho] at h1
        cases h1
        exact hs ((skip_iff e).mpr h2)
    · rw [hn]
      simp only
      exact ⟨hk, [], m, r, rfl, (by simp), ho, hf, hle⟩

/-- **C84**: the token comes from the first bpffs that gives one; an unexpected error stops the search; nothing but the token stays open. -/
theorem token_found (mounts : Except Nat (List Mnt)) (s : St) :
    (∀ e, mounts = .error e → findToken mounts s = (s, .error e)) ∧
    (∀ l, mounts = .ok l → ∃ s' r, findToken mounts s = (s', r) ∧ Kept s s' ∧ Found l s s' r) := by
  refine ⟨fun e h => by rw [h]; rfl, fun l h => ?_⟩
  rw [h]
  exact ⟨_, _, rfl, (findLoop_spec l s).1, (findLoop_spec l s).2⟩

/-- The state after a call, except for the cache. -/
structure Kept' (s s' : St) : Prop where
  locked : s'.locked = s.locked
  prof : s'.prof = s.prof
  next : s.next ≤ s'.next
  log : ∃ l, s'.log = s.log ++ l ∧ ∀ x ∈ l, x.1 = 36 ∨ x.1 = 15

theorem getToken_spec (mounts : Except Nat (List Mnt)) (s : St) :
    (∀ r, s.cache = some r → getToken mounts s = (s, r)) ∧
    (s.cache = none → ∃ s' r, getToken mounts s = (s', r) ∧ s'.cache = some r ∧ Kept' s s' ∧
      (match r with
       | .ok (some t) => s'.fds = t.fd :: s.fds
       | _ => s'.fds = s.fds)) := by
  unfold getToken
  refine ⟨fun r h => by rw [h], fun h => ?_⟩
  rw [h]
  simp only
  obtain ⟨h1, h2⟩ := token_found mounts s
  cases hm : mounts with
  | error e => rw [← hm, h1 e hm]; exact ⟨_, _, rfl, rfl, ⟨rfl, rfl, Nat.le_refl _, [], by simp, by simp⟩, rfl⟩
  | ok l =>
    obtain ⟨s', r, e, hk, hf⟩ := h2 l hm
    rw [← hm, e]
    refine ⟨_, _, rfl, rfl, ⟨hk.locked, hk.prof, hk.next, hk.log⟩, ?_⟩
    cases r with
    | error e => obtain ⟨_, _, _, _, _, _, _, h⟩ := hf; exact h
    | ok o =>
      cases o with
      | none => exact hf.2
      | some t => obtain ⟨_, _, _, _, _, _, h, _⟩ := hf; exact h

theorem usesToken_iff (cmd : Nat) : usesToken cmd = true ↔ cmd ∈ [0, 5, 18] := by
  simp [usesToken, or_assoc]

/-- **C84**: the commands used to find a token don't look for a token and don't mask signals. -/
theorem token_commands_plain (mounts : Except Nat (List Mnt)) (answers : Nat → Except Nat Nat) (fuel : Nat) (attr : Attr) (s : St) (cmd : Nat) (h : cmd = 36 ∨ cmd = 15) :
    bpf mounts answers (fuel + 1) cmd attr s = some (s.sysc cmd attr, match answers 0 with | .ok v => .ok v | .error e => .error (.errno e)) := by
  rcases h with rfl | rfl <;>
  · unfold bpf inner tokenAttr loop
    simp only [masks, usesToken]
    simp
    cases answers 0 <;> rfl

theorem tokenAttr_spec (mounts : Except Nat (List Mnt)) (cmd : Nat) (attr : Attr) (s : St) :
    ∃ s', Kept' s s' ∧
    ((∃ e, cmd ∈ [0, 5, 18] ∧ (getToken mounts s).2 = .error e ∧ tokenAttr mounts cmd attr s = (s', .error e) ∧ s' = (getToken mounts s).1) ∨
     (∃ tok, cmd ∈ [0, 5, 18] ∧ (getToken mounts s).2 = .ok tok ∧ tokenAttr mounts cmd attr s = (s', .ok (tok, withToken cmd attr tok)) ∧ s' = (getToken mounts s).1) ∨
     (cmd ∉ [0, 5, 18] ∧ tokenAttr mounts cmd attr s = (s', .ok (none, attr)) ∧ s' = s)) := by
  unfold tokenAttr
  by_cases hu : usesToken cmd = true
  · rw [if_pos hu]
    have hc := (usesToken_iff cmd).mp hu
    have hk : Kept' s (getToken mounts s).1 := by
      cases hca : s.cache with
      | some r => rw [(getToken_spec mounts s).1 r hca]; exact ⟨rfl, rfl, Nat.le_refl _, [], by simp, by simp⟩
      | none =>
        obtain ⟨s', r, h1, _, h2, _⟩ := (getToken_spec mounts s).2 hca
        rw [h1]; exact h2
    refine ⟨(getToken mounts s).1, hk, ?_⟩
    cases hg : getToken mounts s with
    | mk s' r =>
      cases r with
      | error e => exact .inl ⟨e, hc, rfl, rfl, rfl⟩
      | ok o =>
        cases o with
        | none => exact .inr (.inl ⟨none, hc, rfl, rfl, rfl⟩)
        | some t => exact .inr (.inl ⟨some t, hc, rfl, by simp only [withToken]; rw [if_pos hc], rfl⟩)
  · rw [if_neg hu]
    exact ⟨s, ⟨rfl, rfl, Nat.le_refl _, [], by simp, by simp⟩, .inr (.inr ⟨fun h => hu ((usesToken_iff cmd).mpr h), rfl, rfl⟩)⟩

/-! ## The loop -/

theorem loop_spec (tok : Option Token) (cmd : Nat) (attr : Attr) (answers : Nat → Except Nat Nat) (n : Nat) : ∀ (i fuel : Nat) (s : St),
    (∀ j, i ≤ j → j < i + n → answers j = .error 11 ∧ cmd = 5) → ¬ (answers (i + n) = .error 11 ∧ cmd = 5) → n < fuel →
    loop tok cmd attr answers fuel i s = some ({ s with log := s.log ++ List.replicate (n + 1) (cmd, attr, s.prof) },
      match answers (i + n) with | .ok v => .ok v | .error e => .error (wrapErr tok cmd attr e)) := by
  induction n with
  | zero =>
    intro i fuel s _ h2 hf
    obtain ⟨f, rfl⟩ : ∃ f, fuel = f + 1 := ⟨fuel - 1, by omega⟩
    unfold loop
    simp only [Nat.add_zero] at h2 ⊢
    cases ha : answers i with
    | ok v => rfl
    | error e =>
      simp only
      rw [if_neg (fun h => h2 ⟨by rw [ha, h.1], h.2⟩)]
      rfl
  | succ n ih =>
    intro i fuel s h1 h2 hf
    obtain ⟨f, rfl⟩ : ∃ f, fuel = f + 1 := ⟨fuel - 1, by omega⟩
    unfold loop
    obtain ⟨ha, hc⟩ := h1 i (Nat.le_refl _) (by omega)
    simp only [ha]
    rw [if_pos ⟨trivial, hc⟩, ih (i + 1) f _ (fun j hj hj' => h1 j (by omega) (by omega)) (by rw [show i + 1 + n = i + (n + 1) by omega]; exact h2) (by omega)]
    rw [show i + 1 + n = i + (n + 1) by omega]
    simp [St.sysc, List.replicate_succ]

theorem loop_forever (tok : Option Token) (attr : Attr) (answers : Nat → Except Nat Nat) (h : ∀ i, answers i = .error 11) (fuel : Nat) : ∀ (i : Nat) (s : St),
    loop tok 5 attr answers fuel i s = none := by
  induction fuel with
  | zero => intros; rfl
  | succ f ih => intro i s; unfold loop; simp only [h]; rw [if_pos ⟨trivial, trivial⟩]; exact ih _ _

theorem wrapErr_is (tok : Option Token) (cmd : Nat) (attr : Attr) (e m : Nat) : (wrapErr tok cmd attr e).is m = (e == m) := by
  unfold wrapErr
  cases tok with
  | none => rfl
  | some t =>
    simp only
    split
    · cases t.info with
      | none => rfl
      | some i => simp only; split <;> rfl
    · rfl

theorem wrapErr_cap (tok : Option Token) (hfit : ∀ t i, tok = some t → t.info = some i → Fits i) (cmd : Nat) (attr : Attr) (e : Nat) :
    (wrapErr tok cmd attr e).isCap = true ↔ e = 1 ∧ ∃ t, tok = some t ∧ ∀ i, t.info = some i → ¬ Allowed i cmd attr := by
  unfold wrapErr
  cases tok with
  | none => simp [Err.isCap]
  | some t =>
    simp only
    by_cases h1 : e = 1
    · rw [if_pos h1]
      cases hi : t.info with
      | none => simp [Err.isCap, h1, hi]
      | some i =>
        simp only
        have := capable_iff t i hi (hfit t i rfl hi) cmd attr
        by_cases hc : capable t cmd attr = true
        · rw [if_pos hc]
          simp only [Err.isCap, Bool.false_eq_true, false_iff]
          rintro ⟨_, t', ht, hx⟩
          cases ht
          exact hx i hi (this.mp hc)
        · rw [if_neg hc]
          simp only [Err.isCap, true_iff]
          exact ⟨h1, t, rfl, fun i' hi' => by rw [hi] at hi'; cases hi'; exact fun h => hc (this.mpr h)⟩
    · rw [if_neg h1]; simp [Err.isCap, h1]

theorem masks_iff (cmd : Nat) : masks cmd = true ↔ cmd = 5 ∨ cmd = 10 := by
  simp [masks]

/-- What one call does once the token is known: `n` interrupted attempts, all with the same attributes and with SIGPROF blocked if that may be interrupted. -/
structure Called (cmd n : Nat) (attr : Attr) (tok : Option Token) (answer : Except Nat Nat) (s s' : St) (r : Except Err Nat) : Prop where
  value : ∀ v, answer = .ok v → r = .ok v
  error : ∀ e, answer = .error e → ∃ x, r = .error x ∧ (∀ m, x.is m = true ↔ e = m) ∧
    ((∀ t i, tok = some t → t.info = some i → Fits i) → (x.isCap = true ↔ e = 1 ∧ ∃ t, tok = some t ∧ ∀ i, t.info = some i → ¬ Allowed i cmd (withToken cmd attr tok)))
  log : ∃ l, s'.log = s.log ++ l ++ List.replicate (n + 1) (cmd, withToken cmd attr tok, if cmd = 5 ∨ cmd = 10 then true else s.prof) ∧ ∀ x ∈ l, x.1 = 36 ∨ x.1 = 15

theorem called (cmd n : Nat) (attr : Attr) (tok : Option Token) (answers : Nat → Except Nat Nat) (fuel : Nat) (s0 s1 : St) (hk : Kept' s0 s1)
    (h1 : ∀ j, j < n → answers j = .error 11 ∧ cmd = 5) (h2 : ¬ (answers n = .error 11 ∧ cmd = 5)) (hf : n < fuel)
    (hp : s0.prof = if cmd = 5 ∨ cmd = 10 then true else s0.prof) :
    ∃ s2 r, loop tok cmd (withToken cmd attr tok) answers fuel 0 s1 = some (s2, r) ∧ Called cmd n attr tok (answers n) s0 s2 r ∧
      s2 = { s1 with log := s2.log } := by
  have := loop_spec tok cmd (withToken cmd attr tok) answers n 0 fuel s1 (fun j _ hj => h1 j (by omega)) (by rw [Nat.zero_add]; exact h2) hf
  rw [Nat.zero_add] at this
  refine ⟨_, _, this, ⟨?_, ?_, ?_⟩, rfl⟩
  · intro v hv; rw [hv]
  · intro e he
    rw [he]
    refine ⟨_, rfl, fun m => by rw [wrapErr_is]; simp, fun hfit => wrapErr_cap tok hfit cmd _ e⟩
  · obtain ⟨l, hl, hm⟩ := hk.log
    refine ⟨l, ?_, hm⟩
    show s1.log ++ _ = _
    rw [hl, hk.prof, ← hp]

/-- What a call leaves alone: the thread is unlocked as often as it was locked. -/
structure Restored (cmd : Nat) (s s' : St) : Prop where
  locked : s'.locked = s.locked
  prof : s'.prof = if cmd = 5 ∨ cmd = 10 then false else s.prof

theorem bpf_of_inner (mounts : Except Nat (List Mnt)) (answers : Nat → Except Nat Nat) (fuel cmd : Nat) (attr : Attr) (s : St) (P : St → Except Err Nat → Prop)
    (hP : ∀ s' r, P s' r → P (unmask s') r)
    (h : ∀ s0 : St, s0.fds = s.fds → s0.next = s.next → s0.cache = s.cache → s0.log = s.log → s0.prof = (if cmd = 5 ∨ cmd = 10 then true else s.prof) →
      ∃ s' r, inner mounts answers fuel cmd attr s0 = some (s', r) ∧ P s' r ∧ s'.locked = s0.locked ∧ s'.prof = s0.prof) :
    ∃ s' r, bpf mounts answers fuel cmd attr s = some (s', r) ∧ P s' r ∧ Restored cmd s s' := by
  unfold bpf
  by_cases hm : masks cmd = true
  · rw [if_pos hm]
    have hc := (masks_iff cmd).mp hm
    obtain ⟨s', r, h1, h2, h3, _⟩ := h (mask s) rfl rfl rfl rfl (by rw [if_pos hc]; rfl)
    rw [h1]
    refine ⟨_, _, rfl, hP _ _ h2, ?_, ?_⟩
    · show s'.locked - 1 = s.locked
      rw [h3]; show s.locked + 1 - 1 = _; omega
    · rw [if_pos hc]; rfl
  · rw [if_neg hm]
    have hc : ¬ (cmd = 5 ∨ cmd = 10) := fun h => hm ((masks_iff cmd).mpr h)
    obtain ⟨s', r, h1, h2, h3, h4⟩ := h s rfl rfl rfl rfl (by rw [if_neg hc])
    exact ⟨_, _, h1, h2, h3, by rw [if_neg hc, h4]⟩

/-- **C84**: a command that doesn't use tokens. -/
theorem bpf_plain (mounts : Except Nat (List Mnt)) (answers : Nat → Except Nat Nat) (cmd n fuel : Nat) (attr : Attr) (s : St)
    (h1 : ∀ j, j < n → answers j = .error 11 ∧ cmd = 5) (h2 : ¬ (answers n = .error 11 ∧ cmd = 5)) (hf : n < fuel) (hc : cmd ∉ [0, 5, 18]) :
    ∃ s' r, bpf mounts answers fuel cmd attr s = some (s', r) ∧ Called cmd n attr none (answers n) s s' r ∧ s'.cache = s.cache ∧ s'.fds = s.fds ∧ Restored cmd s s' := by
  have := bpf_of_inner mounts answers fuel cmd attr s (fun s' r => Called cmd n attr none (answers n) s s' r ∧ s'.cache = s.cache ∧ s'.fds = s.fds)
    (fun s' r h => ⟨⟨h.1.1, h.1.2, h.1.3⟩, h.2⟩) (fun s0 e1 e2 e3 e4 e5 => by
      unfold inner
      obtain ⟨s', hk, ⟨e, hx, _⟩ | ⟨e, hx, _⟩ | ⟨_, ht, hs⟩⟩ := tokenAttr_spec mounts cmd attr s0
      · exact absurd hx hc
      · exact absurd hx hc
      · rw [ht]
        simp only
        obtain ⟨s2, r, q1, q2, q3⟩ := called cmd n attr none answers fuel s0 s' hk h1 h2 hf (by rw [e5]; split <;> simp_all)
        have q1 : loop none cmd attr answers fuel 0 s' = some (s2, r) := q1
        refine ⟨s2, r, q1, ⟨⟨q2.1, q2.2, ?_⟩, ?_, ?_⟩, ?_, ?_⟩
        · obtain ⟨l, hl, hm⟩ := q2.3
          refine ⟨l, ?_, hm⟩
          rw [hl, e4, e5]
          split <;> rfl
        · rw [q3]; show s'.cache = _; rw [hs, e3]
        · rw [q3]; show s'.fds = _; rw [hs, e1]
        · rw [q3]; show s'.locked = _; rw [hs]
        · rw [q3]; show s'.prof = _; rw [hs])
  obtain ⟨s', r, a, ⟨b, c, d⟩, e⟩ := this
  exact ⟨s', r, a, b, c, d, e⟩

/-- What is known about tokens after a call that uses them. -/
structure TokenKnown (mounts : Except Nat (List Mnt)) (s s' : St) (t : Except Nat (Option Token)) : Prop where
  cache : s'.cache = some t
  cached : ∀ t', s.cache = some t' → t = t' ∧ s'.fds = s.fds
  found : s.cache = none → ∀ l, mounts = .ok l → Found l s s' t
  failed : s.cache = none → ∀ e, mounts = .error e → t = .error e ∧ s'.fds = s.fds

theorem getToken_known (mounts : Except Nat (List Mnt)) (s : St) : TokenKnown mounts s (getToken mounts s).1 (getToken mounts s).2 := by
  constructor
  · cases hc : s.cache with
    | some r => rw [(getToken_spec mounts s).1 r hc]; exact hc
    | none =>
      obtain ⟨s', r, h1, h2, _⟩ := (getToken_spec mounts s).2 hc
      rw [h1]; exact h2
  · intro t' hc
    rw [(getToken_spec mounts s).1 t' hc]
    exact ⟨rfl, rfl⟩
  · intro hc l hl
    obtain ⟨s', r, h1, _, h2⟩ := (token_found mounts s).2 l hl
    unfold getToken
    rw [hc, h1]
    simp only
    cases r with
    | error e => exact h2
    | ok o => cases o <;> exact h2
  · intro hc e he
    unfold getToken
    rw [hc, (token_found mounts s).1 e he]
    exact ⟨rfl, rfl⟩

/-- **C84**: MAP_CREATE, PROG_LOAD and BTF_LOAD. -/
theorem bpf_token (mounts : Except Nat (List Mnt)) (answers : Nat → Except Nat Nat) (cmd n fuel : Nat) (attr : Attr) (s : St)
    (h1 : ∀ j, j < n → answers j = .error 11 ∧ cmd = 5) (h2 : ¬ (answers n = .error 11 ∧ cmd = 5)) (hf : n < fuel) (hc : cmd ∈ [0, 5, 18]) :
    ∃ s' r t, bpf mounts answers fuel cmd attr s = some (s', r) ∧ TokenKnown mounts s s' t ∧ Restored cmd s s' ∧
      (∀ tok, t = .ok tok → Called cmd n attr tok (answers n) s s' r) ∧
      (∀ e, t = .error e → (∃ x, r = .error x ∧ x.is e = true) ∧ ∃ l, s'.log = s.log ++ l ∧ ∀ x ∈ l, x.1 = 36 ∨ x.1 = 15) := by
  have := bpf_of_inner mounts answers fuel cmd attr s (fun s' r => ∃ t, TokenKnown mounts s s' t ∧ (∀ tok, t = .ok tok → Called cmd n attr tok (answers n) s s' r) ∧
      (∀ e, t = .error e → (∃ x, r = .error x ∧ x.is e = true) ∧ ∃ l, s'.log = s.log ++ l ∧ ∀ x ∈ l, x.1 = 36 ∨ x.1 = 15))
    (fun s' r ⟨t, a, b, c⟩ => ⟨t, ⟨a.1, a.2, (fun hx l hl => by
      have := a.3 hx l hl
      cases t with
      | error e => exact this
      | ok o => cases o <;> exact this), a.4⟩, (fun tok ht => ⟨(b tok ht).1, (b tok ht).2, (b tok ht).3⟩), c⟩)
    (fun s0 e1 e2 e3 e4 e5 => by
      unfold inner
      have kn := getToken_known mounts s0
      have kn : ∀ s2 : St, s2.fds = (getToken mounts s0).1.fds → s2.cache = (getToken mounts s0).1.cache → TokenKnown mounts s s2 (getToken mounts s0).2 := by
        intro s2 f1 f2
        constructor
        · rw [f2]; exact kn.1
        · intro t' ht
          rw [f1, ← e1]; exact kn.2 t' (by rw [e3]; exact ht)
        · intro hn l hl
          have := kn.3 (by rw [e3]; exact hn) l hl
          revert this
          cases (getToken mounts s0).2 with
          | error e => intro h; obtain ⟨a, b, c, d1, d2, d3, d4, d5⟩ := h; exact ⟨a, b, c, d1, d2, d3, d4, by rw [f1, d5, e1]⟩
          | ok o =>
            cases o with
            | none => intro h; exact ⟨h.1, by rw [f1, h.2, e1]⟩
            | some t => intro h; obtain ⟨a, b, c, d1, d2, d3, d4, d5⟩ := h; exact ⟨a, b, c, d1, d2, d3, by rw [f1, d4, e1], by rw [← e2]; exact d5⟩
        · intro hn e he
          rw [f1, ← e1]; exact kn.4 (by rw [e3]; exact hn) e he
      obtain ⟨s', hk, ⟨e, hx, hg, ht, hs⟩ | ⟨tok, hx, hg, ht, hs⟩ | ⟨hx, _⟩⟩ := tokenAttr_spec mounts cmd attr s0
      · rw [ht]
        simp only
        refine ⟨s', _, rfl, ⟨_, kn s' (by rw [hs]) (by rw [hs]), ?_, ?_⟩, hk.locked, hk.prof⟩
        · intro tok h; rw [hg] at h; cases h
        · intro e' h; rw [hg] at h; cases h
          obtain ⟨l, hl, hm⟩ := hk.log
          exact ⟨⟨_, rfl, by simp [Err.is]⟩, l, by rw [hl, e4], hm⟩
      · rw [ht]
        simp only
        obtain ⟨s2, r, q1, q2, q3⟩ := called cmd n attr tok answers fuel s0 s' hk h1 h2 hf (by rw [e5]; split <;> simp_all)
        refine ⟨s2, r, q1, ⟨_, kn s2 (by rw [q3, hs]) (by rw [q3, hs]), ?_, ?_⟩, by rw [q3]; exact hk.locked, by rw [q3]; exact hk.prof⟩
        · intro tok' h
          rw [hg] at h
          cases h
          refine ⟨q2.1, q2.2, ?_⟩
          obtain ⟨l, hl, hm⟩ := q2.3
          refine ⟨l, ?_, hm⟩
          rw [hl, e4, e5]
          split <;> rfl
        · intro e' h; rw [hg] at h; cases h
      · exact absurd hc hx)
  obtain ⟨s', r, a, ⟨t, b, c, d⟩, e⟩ := this
  exact ⟨s', r, t, a, b, e, c, d⟩

/-- **C84**: an interrupted load is repeated until it isn't interrupted: forever, if it always is. -/
theorem bpf_interrupted (mounts : Except Nat (List Mnt)) (answers : Nat → Except Nat Nat) (h : ∀ i, answers i = .error 11) (fuel : Nat) (attr : Attr) (s : St)
    (tok : Option Token) (hc : s.cache = some (.ok tok)) : bpf mounts answers fuel 5 attr s = none := by
  unfold bpf inner
  rw [if_pos (by rfl)]
  have hc' : (mask s).cache = some (.ok tok) := hc
  have : ∃ a', tokenAttr mounts 5 attr (mask s) = (mask s, .ok (tok, a')) := by
    unfold tokenAttr
    rw [if_pos (by rfl), (getToken_spec mounts (mask s)).1 _ hc']
    cases tok <;> exact ⟨_, rfl⟩
  obtain ⟨a', ha⟩ := this
  rw [ha]
  simp only
  rw [loop_forever tok a' answers h]
  rfl

/-! ## Histories -/

/-- One call by the process: the kernel's answers, the command and the attributes. -/
structure Call where
  answers : Nat → Except Nat Nat
  n : Nat
  cmd : Nat
  attr : Attr

/-- The kernel interrupts the call `n` times. -/
def Call.Ok (c : Call) : Prop := (∀ j, j < c.n → c.answers j = .error 11 ∧ c.cmd = 5) ∧ ¬ (c.answers c.n = .error 11 ∧ c.cmd = 5)

/-- Calls one after another. -/
def run (mounts : Except Nat (List Mnt)) : List Call → St → Option St
  | [], s => some s
  | c :: r, s => (bpf mounts c.answers (c.n + 1) c.cmd c.attr s).bind fun x => run mounts r x.1

/-- **C84**: whatever is called, at most one token stays open, the thread's lock count is kept and SIGPROF stays unblocked. -/
theorem run_kept_partial (mounts : Except Nat (List Mnt)) (calls : List Call) (h : ∀ c ∈ calls, c.Ok) : ∀ s : St, s.prof = false →
    ∃ s', run mounts calls s = some s' ∧ s'.locked = s.locked ∧ s'.prof = false ∧ (s'.fds = s.fds ∨ s.cache = none ∧ ∃ t, s'.cache = some (.ok (some t)) ∧ s'.fds = t.fd :: s.fds) ∧
      (∀ t, s.cache = some t → s'.cache = some t) := by
  induction calls with
  | nil => intro s hp; exact ⟨s, rfl, rfl, hp, .inl rfl, fun _ h => h⟩
  | cons c r ih =>
    intro s hp
    obtain ⟨h1, h2⟩ := h c (List.mem_cons_self ..)
    have ih := ih (fun c hc => h c (List.mem_cons_of_mem _ hc))
    by_cases hc : c.cmd ∈ [0, 5, 18]
    · obtain ⟨s1, r1, t, e1, e2, e3, _⟩ := bpf_token mounts c.answers c.cmd c.n (c.n + 1) c.attr s h1 h2 (Nat.lt_succ_self _) hc
      obtain ⟨s2, f1, f2, f3, f4, f5⟩ := ih s1 (by rw [e3.prof]; split <;> simp [hp])
      refine ⟨s2, by simp only [run, e1, Option.bind_some]; exact f1, by rw [f2, e3.locked], f3, ?_, ?_⟩
      · have hx : s2.fds = s1.fds := by
          rcases f4 with f4 | ⟨f4, _⟩
          · exact f4
          · rw [e2.cache] at f4; cases f4
        rw [hx, f5 t e2.cache]
        cases hs : s.cache with
        | some t' => left; exact (e2.cached t' hs).2
        | none =>
          cases hm : mounts with
          | error e => left; exact (e2.failed hs e hm).2
          | ok l =>
            have hfd := e2.found hs l hm
            cases t with
            | error e => obtain ⟨_, _, _, _, _, _, _, hh⟩ := hfd; exact .inl hh
            | ok o =>
              cases o with
              | none => exact .inl hfd.2
              | some t => obtain ⟨_, _, _, _, _, _, hh, _⟩ := hfd; exact .inr ⟨rfl, t, rfl, hh⟩
      · intro t' ht
        rw [f5 t e2.cache, (e2.cached t' ht).1]
    · obtain ⟨s1, r1, e1, _, e2, e3, e4⟩ := bpf_plain mounts c.answers c.cmd c.n (c.n + 1) c.attr s h1 h2 (Nat.lt_succ_self _) hc
      obtain ⟨s2, f1, f2, f3, f4, f5⟩ := ih s1 (by rw [e4.prof]; split <;> simp [hp])
      refine ⟨s2, by simp only [run, e1, Option.bind_some]; exact f1, by rw [f2, e4.locked], f3, ?_, ?_⟩
      · rw [e2, e3] at f4; exact f4
      · intro t ht; exact f5 t (by rw [e2]; exact ht)

/-! ## Signal sets -/

/-- **C84**: adding a signal adds that signal and no other, on 32 and 64 bit words. -/
theorem sigsetAdd_exact (w : Nat) (hw : 0 < w) (set : List Nat) (signal : Int) :
    (∀ set', sigsetAdd w set signal = some set' → set'.length = set.length ∧ ∀ x : Nat, 1 ≤ x → (member w set' x = true ↔ (x : Int) = signal ∨ member w set x = true)) ∧
    (sigsetAdd w set signal = none ↔ signal < 1 ∨ ((w * set.length : Nat) : Int) < signal) := by
  unfold sigsetAdd
  by_cases h1 : signal < 1
  · rw [if_pos h1]; simp [h1]
  · rw [if_neg h1]
    obtain ⟨b, hb⟩ : ∃ b, b = (signal - 1).toNat := ⟨_, rfl⟩
    rw [← hb]
    have hsig : signal = (b : Int) + 1 := by omega
    simp only
    by_cases h2 : b / w ≥ set.length
    · rw [if_pos h2]
      have : w * set.length ≤ b := by
        have := (Nat.le_div_iff_mul_le hw).mp h2
        rw [Nat.mul_comm]; exact this
      refine ⟨(fun _ h => by cases h), ?_⟩
      simp only [true_iff]
      right; rw [hsig]; omega
    · rw [if_neg h2]
      have hlt : b < w * set.length := by
        have := (Nat.div_lt_iff_lt_mul hw).mp (Nat.lt_of_not_le h2)
        rw [Nat.mul_comm]; exact this
      refine ⟨fun set' h => ?_, ?_⟩
      · cases h
        refine ⟨List.length_modify .., fun x hx => ?_⟩
        unfold member
        rw [List.getElem?_modify]
        by_cases hq : b / w = (x - 1) / w
        · simp only [if_pos hq]
          have hsm : ∃ y, set[(x - 1) / w]? = some y := ⟨_, List.getElem?_eq_getElem (by omega)⟩
          obtain ⟨y, hy⟩ := hsm
          rw [hy]
          simp only [Option.map_eq_map, Option.map_some, Option.getD_some, Nat.testBit_or, Nat.one_shiftLeft, Nat.testBit_two_pow, Bool.or_eq_true, decide_eq_true_eq]
          constructor
          · rintro (h | h)
            · exact .inr h
            · left
              have e1 := Nat.div_add_mod b w
              have e2 := Nat.div_add_mod (x - 1) w
              rw [hq, h] at e1
              rw [hsig]; omega
          · rintro (h | h)
            · right
              have : x - 1 = b := by omega
              rw [this]
            · exact .inl h
        · simp only [if_neg hq, Option.map_eq_map, Option.map_id', id_eq, Option.map_id_fun']
          constructor
          · exact .inr
          · rintro (h | h)
            · exfalso; apply hq
              have : x - 1 = b := by omega
              rw [this]
            · exact h
      · constructor
        · intro h; cases h
        · rintro (h | h)
          · exact absurd h h1
          · rw [hsig] at h; omega

/-- **C84**: the set used to mask signals has SIGPROF and nothing else. -/
theorem profSet_exact (w n : Nat) (hw : 0 < w) (hn : 27 ≤ w * n) (x : Nat) (hx : 1 ≤ x) : member w (profSet w n) x = true ↔ x = 27 := by
  have hs : sigsetAdd w (List.replicate n 0) 27 = some (profSet w n) := by
    unfold sigsetAdd
    rw [if_neg (by omega)]
    simp only [List.length_replicate]
    have : ¬ 26 / w ≥ n := by
      intro h
      have := (Nat.le_div_iff_mul_le hw).mp h
      rw [Nat.mul_comm] at this; omega
    exact if_neg this
  have := ((sigsetAdd_exact w hw (List.replicate n 0) 27).1 _ hs).2 x hx
  rw [this]
  have hz : member w (List.replicate n 0) x = false := by
    unfold member
    rw [List.getElem?_replicate]
    split <;> simp
  rw [hz]
  simp; omega

/-! ## What is false -/

/-- **C84**: a caller that had SIGPROF blocked has it unblocked after loading a program. -/
theorem sigprof_unblocked : ∃ s s' : St, s.prof = true ∧ (∃ r, bpf (.ok []) (fun _ => .ok 3) 1 5 ⟨1, 0, 0, 0, []⟩ s = some (s', r)) ∧ s'.prof = false :=
  ⟨⟨0, true, none, [], 3, []⟩, _, rfl, ⟨_, rfl⟩, rfl⟩

/-- **C84**: running out of descriptors (EMFILE) in the first call makes all later calls fail, although the kernel would do what is asked for. -/
theorem token_error_stays : ∃ s1 s2 : St, (∃ r, bpf (.ok [⟨some 24, none, .error 22⟩]) (fun _ => .ok 3) 1 0 ⟨1, 0, 0, 0, []⟩ ⟨0, false, none, [], 3, []⟩ = some (s1, r)) ∧
    bpf (.ok [⟨none, none, .error 22⟩]) (fun _ => .ok 3) 1 0 ⟨1, 0, 0, 0, []⟩ s1 = some (s2, .error (.token 24)) :=
  ⟨_, _, ⟨_, rfl⟩, rfl⟩

/-! ## Not vacuous -/

/-- Two mounts, the second has a token that allows loading programs of type 1; loading is interrupted twice and then refused. -/
example : ∃ s', bpf (.ok [⟨none, some 2, .error 22⟩, ⟨none, none, .ok ⟨2 ^ 5, 0, 2 ^ 2, 1⟩⟩]) (fun i => if i < 2 then .error 11 else .error 1) 3 5 ⟨1, 0, 4, 0, [7]⟩ ⟨0, false, none, [9], 10, []⟩
    = some (s', .error (.cap 1)) ∧ s'.fds = [12, 9] ∧ s'.log.length = 6 ∧ s'.prof = false ∧ s'.locked = 0 ∧ s'.log.getLast? = some (5, ⟨1, 0, 65540, 12, [7]⟩, true) :=
  ⟨_, rfl, rfl, rfl, rfl, rfl, rfl⟩

/-- And allowed by the token, still refused. -/
example : ∃ s', bpf (.ok [⟨none, none, .ok ⟨2 ^ 5, 0, 2 ^ 1, 1⟩⟩]) (fun _ => .error 1) 3 5 ⟨1, 0, 4, 0, [7]⟩ ⟨0, false, none, [9], 10, []⟩ = some (s', .error (.errno 1)) :=
  ⟨_, rfl⟩

example : (⟨fun i => if i < 2 then .error 11 else .ok 3, 2, 5, ⟨1, 0, 4, 0, [7]⟩⟩ : Call).Ok := by
  refine ⟨?_, ?_⟩
  · intro j hj
    have hj : j < 2 := hj
    exact ⟨if_pos hj, rfl⟩
  · rintro ⟨h, _⟩
    cases h

end Ebpf.Sysc
