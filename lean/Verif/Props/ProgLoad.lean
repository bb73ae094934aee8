import Verif.Spec.ProgLoad
/-!
# C74: loading ends, and errors carry the whole verifier log
-/
namespace Ebpf.ProgLoad
open Ebpf.ProgLoadSpec

theorem cString_buffer {size : BitVec 32} {l : Bytes} (h0 : 0#8 ∉ l) (hs : l.length + 1 ≤ size.toNat) : cString (buffer size l) = l := by
  unfold cString buffer
  rw [List.take_of_length_le (by omega)]
  obtain ⟨m, hm⟩ : ∃ m, size.toNat - l.length = m + 1 := ⟨size.toNat - l.length - 1, by omega⟩
  rw [hm, List.replicate_succ]
  rw [List.takeWhile_append_of_pos (by intro a ha; simp only [ne_eq, decide_eq_true_eq]; intro e; rw [e] at ha; exact h0 ha)]
  simp

theorem between_bounds (s : BitVec 32) : minLog ≤ between s minLog maxLog ∧ between s minLog maxLog ≤ maxLog := by
  unfold between minLog maxLog
  simp only [show ¬ (0x3fffffff#32 < 0x10000#32) by decide, if_false]
  split
  · simp
  · split
    · simp
    · rename_i h1 h2
      exact ⟨BitVec.not_lt.mp h2, BitVec.not_lt.mp h1⟩

/-- The outcome the specification asks for, once a log was asked for. -/
def expected (v : Verifier) (level : BitVec 32) : Outcome :=
  match v.verdict with
  | .ok fd => .loaded fd (v.full level)
  | .error e => .rejected (.other e) (v.full level)

section
variable {v : Verifier} {k : Kernel} (hk : Linux v k)
include hk

theorem loop_fits (start : BitVec 32) (fuel attempts : Nat) (attr : Attr) (buf : Bytes) (hl : attr.logLevel ≠ 0#32) (hs : attr.logSize ≤ maxLog)
    (hf : Fits v attr.logLevel attr.logSize) : loop k start (fuel + 1) attempts attr buf = some (expected v attr.logLevel, [attr]) := by
  obtain ⟨h1, h2⟩ := hk.fits attempts attr hl hs hf
  unfold loop
  simp only [h1, h2, Verifier.result, if_pos hl]
  rw [cString_buffer (v.noNul _) hf]
  unfold expected
  cases v.verdict with
  | ok fd => rfl
  | error e =>
    simp only
    have : retryLogAttrs { attr with trueSize := (k attempts attr).trueSize } start (.other e) = none := by
      unfold retryLogAttrs
      simp only
      split
      · rfl
      · simp
    rw [this]

theorem loop_short (start : BitVec 32) (fuel attempts : Nat) (attr : Attr) (buf : Bytes) (hl : attr.logLevel ≠ 0#32) (hs : attr.logSize ≤ maxLog)
    (hf : ¬ Fits v attr.logLevel attr.logSize) (hm : attr.logSize ≠ maxLog) (ha : attempts < 30) :
    ∃ buf' ts, ts = (if v.reportsSize then BitVec.ofNat 32 ((v.full attr.logLevel).length + 1) else attr.trueSize) ∧
      loop k start (fuel + 1) attempts attr buf =
      (loop k start fuel (attempts + 1) ⟨attr.logLevel, if ts ≠ 0#32 then ts else if maxLog / 2#32 ≤ attr.logSize then maxLog else
        between attr.logSize minLog (maxLog / 2#32) * 2#32, ts⟩ buf').map fun o => (o.1, attr :: o.2) := by
  have h1 := hk.short attempts attr hl hs hf
  have h2 := hk.size attempts attr hl hs
  refine ⟨buffer attr.logSize (k attempts attr).log, _, rfl, ?_⟩
  rw [loop]
  simp only [h1, if_pos hl]
  rw [← h2]
  have : retryLogAttrs { attr with trueSize := (k attempts attr).trueSize } start .noSpace =
      some ⟨attr.logLevel, if (k attempts attr).trueSize ≠ 0#32 then (k attempts attr).trueSize else if maxLog / 2#32 ≤ attr.logSize then maxLog else
        between attr.logSize minLog (maxLog / 2#32) * 2#32, (k attempts attr).trueSize⟩ := by
    unfold retryLogAttrs
    simp only [if_neg hm, if_true]
    split
    · rfl
    · split <;> rfl
  rw [this]
  simp only
  rw [if_neg (by unfold maxAttempts; omega)]

/-- With a kernel that reports the size: at most two attempts. -/
theorem loop_reports (start : BitVec 32) (attempts : Nat) (attr : Attr) (buf : Bytes) (hl : attr.logLevel ≠ 0#32) (hs : attr.logSize ≤ maxLog) (hr : v.reportsSize = true)
    (hL : Fits v attr.logLevel maxLog) (ha : attempts < 30) (hmin : minLog ≤ attr.logSize) (fuel : Nat) :
    ∃ as, loop k start (fuel + 2) attempts attr buf = some (expected v attr.logLevel, as) ∧ as.length ≤ 2 ∧
      ∀ a ∈ as, a.logLevel = attr.logLevel ∧ minLog ≤ a.logSize ∧ a.logSize ≤ maxLog := by
  by_cases hf : Fits v attr.logLevel attr.logSize
  · refine ⟨[attr], loop_fits hk _ _ _ _ _ hl hs hf, by simp, ?_⟩
    intro a h; simp only [List.mem_singleton] at h; subst h; exact ⟨rfl, hmin, hs⟩
  · have hm : attr.logSize ≠ maxLog := by intro e; rw [e] at hf; exact hf hL
    obtain ⟨buf', ts, h1, h2⟩ := loop_short hk start (fuel + 1) attempts attr buf hl hs hf hm ha
    rw [if_pos hr] at h1
    have hL' : (v.full attr.logLevel).length + 1 ≤ 0x3fffffff := hL
    have hts : ts.toNat = (v.full attr.logLevel).length + 1 := by rw [h1, BitVec.toNat_ofNat]; omega
    have hne : ts ≠ 0#32 := by intro e; rw [e] at hts; simp at hts
    have hle : ts ≤ maxLog := by rw [BitVec.le_def, hts]; exact hL
    rw [h2, if_pos hne, loop_fits hk start fuel (attempts + 1) ⟨attr.logLevel, ts, ts⟩ buf' hl hle (Nat.le_of_eq hts.symm)]
    refine ⟨[attr, ⟨attr.logLevel, ts, ts⟩], rfl, by simp, ?_⟩
    intro a h
    rcases List.mem_cons.mp h with h | h
    · subst h; exact ⟨rfl, hmin, hs⟩
    · simp only [List.mem_singleton] at h; subst h
      refine ⟨rfl, ?_, hle⟩
      rw [BitVec.le_def] at hmin ⊢
      have : ¬ ((v.full attr.logLevel).length + 1 ≤ attr.logSize.toNat) := hf
      simp only
      omega

/-- With an older kernel: at most `j + 1` attempts if doubling the buffer `j` times is enough. -/
theorem loop_doubles (start : BitVec 32) (hr : v.reportsSize = false) (j : Nat) : ∀ (fuel attempts : Nat) (attr : Attr) (buf : Bytes), attr.logLevel ≠ 0#32 → attr.logSize ≤ maxLog →
    attr.trueSize = 0#32 → Fits v attr.logLevel maxLog → attempts + j < 30 → minLog ≤ attr.logSize → 0x3fffffff ≤ attr.logSize.toNat * 2 ^ j → j < fuel →
    ∃ as, loop k start fuel attempts attr buf = some (expected v attr.logLevel, as) ∧ as.length ≤ j + 1 ∧
      ∀ a ∈ as, a.logLevel = attr.logLevel ∧ minLog ≤ a.logSize ∧ a.logSize ≤ maxLog := by
  induction j with
  | zero =>
    intro fuel attempts attr buf hl hs ht hL ha hmin hj hfu
    obtain ⟨f, rfl⟩ : ∃ f, fuel = f + 1 := ⟨fuel - 1, by omega⟩
    have hf : Fits v attr.logLevel attr.logSize := by
      have : (v.full attr.logLevel).length + 1 ≤ 0x3fffffff := hL
      unfold Fits; omega
    refine ⟨[attr], loop_fits hk _ _ _ _ _ hl hs hf, by simp, ?_⟩
    intro a h; simp only [List.mem_singleton] at h; subst h; exact ⟨rfl, hmin, hs⟩
  | succ j ih =>
    intro fuel attempts attr buf hl hs ht hL ha hmin hj hfu
    obtain ⟨f, rfl⟩ : ∃ f, fuel = f + 1 := ⟨fuel - 1, by omega⟩
    by_cases hf : Fits v attr.logLevel attr.logSize
    · refine ⟨[attr], loop_fits hk _ _ _ _ _ hl hs hf, by simp, ?_⟩
      intro a h; simp only [List.mem_singleton] at h; subst h; exact ⟨rfl, hmin, hs⟩
    · have hm : attr.logSize ≠ maxLog := by intro e; rw [e] at hf; exact hf hL
      obtain ⟨buf', ts, h1, h2⟩ := loop_short hk start f attempts attr buf hl hs hf hm (by omega)
      rw [hr] at h1
      simp only [Bool.false_eq_true, if_false] at h1
      rw [ht] at h1
      subst h1
      rw [h2, if_neg (by simp)]
      by_cases hb : maxLog / 2#32 ≤ attr.logSize
      · rw [if_pos hb]
        obtain ⟨f', rfl⟩ : ∃ f', f = f' + 1 := ⟨f - 1, by omega⟩
        rw [loop_fits hk start f' (attempts + 1) ⟨attr.logLevel, maxLog, 0#32⟩ buf' hl (by simp) hL]
        refine ⟨[attr, ⟨attr.logLevel, maxLog, 0#32⟩], rfl, by simp, ?_⟩
        intro a h
        rcases List.mem_cons.mp h with h | h
        · subst h; exact ⟨rfl, hmin, hs⟩
        · simp only [List.mem_singleton] at h; subst h; exact ⟨rfl, (by show minLog ≤ maxLog; decide), by simp⟩
      · rw [if_neg hb]
        have hlt : attr.logSize.toNat < 0x1fffffff := by
          have := BitVec.not_le.mp hb
          rw [BitVec.lt_def] at this
          exact this
        have hge : 0x10000 ≤ attr.logSize.toNat := by rw [BitVec.le_def] at hmin; exact hmin
        have hbt : between attr.logSize minLog (maxLog / 2#32) = attr.logSize := by
          unfold between
          simp only [show ¬ (maxLog / 2#32 < minLog) by decide, if_false]
          have g1 : ¬ (maxLog / 2#32 < attr.logSize) := by rw [BitVec.lt_def]; show ¬ (0x1fffffff < _); omega
          rw [if_neg g1, if_neg (by rw [BitVec.lt_def]; show ¬ (_ < 0x10000); omega)]
        rw [hbt]
        have hdb : (attr.logSize * 2#32).toNat = attr.logSize.toNat * 2 := by
          rw [BitVec.toNat_mul]; simp only [BitVec.toNat_ofNat]; omega
        obtain ⟨as, e, e2, e3⟩ := ih f (attempts + 1) ⟨attr.logLevel, attr.logSize * 2#32, 0#32⟩ buf' hl (by rw [BitVec.le_def]; show _ ≤ 0x3fffffff; simp only; omega) rfl hL (by omega)
          (by rw [BitVec.le_def]; show 0x10000 ≤ _; simp only; omega) (by simp only [hdb]; rw [Nat.mul_assoc, Nat.mul_comm 2, ← Nat.pow_succ]; exact hj) (by omega)
        rw [e]
        refine ⟨attr :: as, rfl, by simp only [List.length_cons]; omega, ?_⟩
        intro a h
        rcases List.mem_cons.mp h with h | h
        · subst h; exact ⟨rfl, hmin, hs⟩
        · exact e3 a h

theorem loop_any (start : BitVec 32) (attempts : Nat) (attr : Attr) (buf : Bytes) (hl : attr.logLevel ≠ 0#32) (hs : attr.logSize ≤ maxLog) (ht : attr.trueSize = 0#32)
    (hL : Fits v attr.logLevel maxLog) (ha : attempts ≤ 2) (hmin : minLog ≤ attr.logSize) (fuel : Nat) (hfu : 15 ≤ fuel) :
    ∃ as, loop k start fuel attempts attr buf = some (expected v attr.logLevel, as) ∧ as.length ≤ 15 ∧ (v.reportsSize = true → as.length ≤ 2) ∧
      ∀ a ∈ as, a.logLevel = attr.logLevel ∧ minLog ≤ a.logSize ∧ a.logSize ≤ maxLog := by
  cases hr : v.reportsSize with
  | true =>
    obtain ⟨f, rfl⟩ : ∃ f, fuel = f + 2 := ⟨fuel - 2, by omega⟩
    obtain ⟨as, h1, h2, h3⟩ := loop_reports hk start attempts attr buf hl hs hr hL (by omega) hmin f
    exact ⟨as, h1, by omega, fun _ => h2, h3⟩
  | false =>
    have hge : 0x10000 ≤ attr.logSize.toNat := by rw [BitVec.le_def] at hmin; exact hmin
    obtain ⟨as, h1, h2, h3⟩ := loop_doubles hk start hr 14 fuel attempts attr buf hl hs ht hL (by omega) hmin (by omega) (by omega)
    exact ⟨as, h1, h2, fun h => (by cases h), h3⟩

end

/-- The level at which errors are logged: the one asked for, or branches. -/
def errLevel (o : Options) : BitVec 32 := if o.logLevel = 0#32 then 1#32 else o.logLevel

/-- **C74.** On every kernel behaving like Linux, with or without `log_true_size`, and for every log that fits the largest buffer the kernel allows: a program that is accepted is
loaded, with the whole log if one was asked for; a program that is rejected gives the error of the verifier and its whole log. It takes at most 16 attempts, three if
the kernel reports the size of the log, and no buffer is larger than the kernel allows. -/
theorem load_complete (v : Verifier) (k : Kernel) (hk : Linux v k) (o : Options) (hd : o.logDisabled = false)
    (hL : (v.full (if o.logLevel = 0#32 then 1#32 else o.logLevel)).length < 0x3fffffff) :
    ∃ as, load k o 30 = some (match v.verdict with
        | .ok fd => .loaded fd (if o.logLevel = 0#32 then [] else v.full o.logLevel)
        | .error e => .rejected (.other e) (v.full (if o.logLevel = 0#32 then 1#32 else o.logLevel)), as) ∧
      as.length ≤ 16 ∧ (v.reportsSize = true → as.length ≤ 3) ∧ ∀ a ∈ as, a.logSize ≤ 0x3fffffff#32 := by
  unfold load
  rw [hd]
  simp only [Bool.false_eq_true, if_false]
  by_cases hl : o.logLevel = 0#32
  · rw [if_neg (by simp [hl])]
    simp only [hl, if_true] at hL ⊢
    have h0 := hk.noLog 1 ⟨0#32, 0#32, 0#32⟩ rfl rfl
    have h1 := hk.noLogSize 1 ⟨0#32, 0#32, 0#32⟩ rfl
    have h1' : (k 1 ⟨0#32, 0#32, 0#32⟩).trueSize = 0#32 := by rcases h1 with h | h <;> exact h
    rw [loop]
    simp only [h0, h1', Verifier.result]
    cases hv : v.verdict with
    | ok fd => exact ⟨_, rfl, by simp, by simp, by simp⟩
    | error e =>
      simp only
      have : retryLogAttrs ⟨0#32, 0#32, 0#32⟩ o.logSizeStart (.other e) = some ⟨1#32, between o.logSizeStart minLog maxLog, 0#32⟩ := by
        unfold retryLogAttrs
        simp [maxLog]
      rw [this]
      simp only [show ¬ maxAttempts ≤ 1 by decide, if_false, Nat.reduceAdd]
      obtain ⟨as, e1, e2, e3, e4⟩ := loop_any hk o.logSizeStart 2 ⟨1#32, between o.logSizeStart minLog maxLog, 0#32⟩ (if (0#32 : BitVec 32) ≠ 0#32 then buffer 0#32 (k 1 ⟨0#32, 0#32, 0#32⟩).log else [])
        (by simp) (between_bounds _).2 rfl hL (by omega) (between_bounds _).1 29 (by omega)
      rw [e1]
      refine ⟨⟨0#32, 0#32, 0#32⟩ :: as, ?_, ?_, ?_, ?_⟩
      · simp only [Option.map_some, expected, hv]
      · simp only [List.length_cons]; omega
      · intro h; have := e3 h; simp only [List.length_cons]; omega
      · intro a ha
        rcases List.mem_cons.mp ha with ha | ha
        · subst ha; decide
        · exact (e4 a ha).2.2
  · rw [if_pos hl]
    simp only [if_neg hl] at hL ⊢
    obtain ⟨as, e1, e2, e3, e4⟩ := loop_any hk o.logSizeStart 1 ⟨o.logLevel, between o.logSizeStart minLog maxLog, 0#32⟩ []
        hl (between_bounds _).2 rfl hL (by omega) (between_bounds _).1 30 (by omega)
    refine ⟨as, ?_, by omega, fun h => by have := e3 h; omega, fun a ha => (e4 a ha).2.2⟩
    rw [e1]
    unfold expected
    cases v.verdict <;> rfl

/-- Beyond the largest buffer (1 GiB) the verdict is lost on kernels that report the size of the log: the code asks for a buffer of the reported size, which the kernel refuses, and that is the error
returned. Older kernels give ENOSPC. -/
theorem huge_log_hides_error (v : Verifier) (k : Kernel) (hk : Linux v k) (o : Options) (hd : o.logDisabled = false) (hl : o.logLevel ≠ 0#32) (hr : v.reportsSize = true)
    (hs : o.logSizeStart < 0x3fffffff#32) (hL : 0x3fffffff ≤ (v.full o.logLevel).length) (hL2 : (v.full o.logLevel).length + 1 < 2 ^ 32) :
    ∃ log as, load k o 30 = some (.rejected (.other einval) log, as) := by
  unfold load
  rw [hd]
  simp only [Bool.false_eq_true, if_false]
  rw [if_pos hl]
  have hlt : between o.logSizeStart minLog maxLog < maxLog := by
    unfold between
    simp only [show ¬ (maxLog < minLog) by decide, if_false]
    have hn : ¬ (maxLog < o.logSizeStart) := BitVec.not_lt.mpr (BitVec.le_of_lt hs)
    rw [if_neg hn]
    split
    · decide
    · exact hs
  have hb := (between_bounds o.logSizeStart).2
  have hnf : ¬ Fits v o.logLevel (between o.logSizeStart minLog maxLog) := by
    rw [BitVec.le_def] at hb
    have : maxLog.toNat = 0x3fffffff := rfl
    unfold Fits; omega
  obtain ⟨buf', ts, h1, h2⟩ := loop_short hk o.logSizeStart 29 1 ⟨o.logLevel, between o.logSizeStart minLog maxLog, 0#32⟩ [] hl hb hnf
    (by intro e; have e : between o.logSizeStart minLog maxLog = maxLog := e; rw [e] at hlt; exact absurd hlt (by decide)) (by omega)
  rw [if_pos hr] at h1
  have hts : ts.toNat = (v.full o.logLevel).length + 1 := by rw [h1, BitVec.toNat_ofNat]; simp only; omega
  have hne : ts ≠ 0#32 := by intro e; rw [e] at hts; simp at hts
  have hbig : 0x3fffffff#32 < ts := by rw [BitVec.lt_def, hts]; show 0x3fffffff < _; omega
  have h3 := hk.tooBig 2 ⟨o.logLevel, ts, ts⟩ hl hbig
  have h4 : retryLogAttrs ⟨o.logLevel, ts, (k 2 ⟨o.logLevel, ts, ts⟩).trueSize⟩ o.logSizeStart (.other einval) = none := by
    unfold retryLogAttrs
    simp [hl]
  rw [h2, if_pos hne, loop]
  simp only [h3, h4, Nat.reduceAdd]
  exact ⟨_, _, rfl⟩

theorem loop_bounded (k : Kernel) (start : BitVec 32) : ∀ (fuel attempts : Nat) (attr : Attr) (buf : Bytes), attempts ≤ 30 → 31 ≤ fuel + attempts →
    ∃ out as, loop k start fuel attempts attr buf = some (out, as) ∧ as.length + attempts ≤ 31 := by
  intro fuel
  induction fuel with
  | zero => intro attempts attr buf h1 h2; omega
  | succ f ih =>
    intro attempts attr buf h1 h2
    rw [loop]
    generalize (if attr.logLevel ≠ 0#32 then buffer attr.logSize (k attempts attr).log else buf) = b
    cases hr : (k attempts attr).result with
    | ok fd => exact ⟨_, _, rfl, by simp only [List.length_singleton]; omega⟩
    | error e =>
      simp only
      cases hy : retryLogAttrs { attr with trueSize := (k attempts attr).trueSize } start e with
      | none => exact ⟨_, _, rfl, by simp only [List.length_singleton]; omega⟩
      | some attr' =>
        simp only
        by_cases hm : maxAttempts ≤ attempts
        · rw [if_pos hm]; exact ⟨_, _, rfl, by simp only [List.length_singleton]; omega⟩
        · rw [if_neg hm]
          unfold maxAttempts at hm
          obtain ⟨out, as, e1, e2⟩ := ih (attempts + 1) attr' b (by omega) (by omega)
          rw [e1]
          exact ⟨out, attr :: as, rfl, by simp only [List.length_cons]; omega⟩

/-- **C74.** Whatever the kernel answers, loading a program ends after at most 30 attempts, and after one if the log is disabled. -/
theorem load_bounded (k : Kernel) (o : Options) :
    ∃ out as, load k o 30 = some (out, as) ∧ as.length ≤ 30 ∧ (o.logDisabled = true → as.length = 1) := by
  unfold load
  cases hd : o.logDisabled with
  | true =>
    simp only [if_true]
    cases (k 1 ⟨0#32, 0#32, 0#32⟩).result with
    | ok fd => exact ⟨_, _, rfl, by simp, by simp⟩
    | error e => exact ⟨_, _, rfl, by simp, by simp⟩
  | false =>
    simp only [Bool.false_eq_true, if_false]
    split
    · obtain ⟨out, as, h1, h2⟩ := loop_bounded k o.logSizeStart 30 1 ⟨o.logLevel, between o.logSizeStart minLog maxLog, 0#32⟩ [] (by omega) (by omega)
      exact ⟨out, as, h1, by omega, fun h => by cases h⟩
    · obtain ⟨out, as, h1, h2⟩ := loop_bounded k o.logSizeStart 30 1 ⟨0#32, 0#32, 0#32⟩ [] (by omega) (by omega)
      exact ⟨out, as, h1, by omega, fun h => by cases h⟩

/-! ## BTF -/

theorem buffer_length (size : BitVec 32) (l : Bytes) : (buffer size l).length = size.toNat := by
  unfold buffer
  simp only [List.length_append, List.length_take, List.length_replicate]
  omega

theorem btfLoop_ends (k : Kernel) : ∀ (fuel attempts : Nat) (attr : Attr) (buf : Bytes), buf.length = attr.logSize.toNat → (attr.logLevel = 0#32 → attr.logSize = 0#32) →
    2 ^ 32 < fuel + attr.logSize.toNat → ∃ out as, btfLoop k fuel attempts attr buf = some (out, as) := by
  intro fuel
  induction fuel with
  | zero => intro attempts attr buf h1 h2 h3; have := attr.logSize.isLt; omega
  | succ f ih =>
    intro attempts attr buf h1 h2 h3
    rw [btfLoop]
    simp only
    have hlen : (if attr.logLevel ≠ 0#32 then buffer attr.logSize (k attempts attr).log else buf).length = attr.logSize.toNat := by
      split
      · exact buffer_length _ _
      · exact h1
    generalize (if attr.logLevel ≠ 0#32 then buffer attr.logSize (k attempts attr).log else buf) = b at hlen
    cases hr : (k attempts attr).result with
    | ok fd => exact ⟨_, _, rfl⟩
    | error e =>
      simp only
      split
      · exact ⟨_, _, rfl⟩
      · rename_i hn
        split
        · exact ⟨_, _, rfl⟩
        · split
          · exact ⟨_, _, rfl⟩
          · rename_i _ hov
            have hgrow : attr.logSize.toNat < (if (k attempts attr).trueSize ≠ 0#32 then (k attempts attr).trueSize else guess b.length).toNat := by
              split
              · rename_i hts
                have : ¬ ((k attempts attr).trueSize ≤ attr.logSize) := fun h => hn ⟨hts, h⟩
                rw [BitVec.le_def] at this
                omega
              · unfold guess at hov ⊢
                rw [BitVec.toNat_ofNat] at hov ⊢
                rw [hlen] at hov ⊢
                have := attr.logSize.isLt
                omega
            obtain ⟨out, as, e1⟩ := ih (attempts + 1) ⟨1#32, if (k attempts attr).trueSize ≠ 0#32 then (k attempts attr).trueSize else guess b.length, (k attempts attr).trueSize⟩
              (buffer (if (k attempts attr).trueSize ≠ 0#32 then (k attempts attr).trueSize else guess b.length) []) (buffer_length _ _)
              (fun h => absurd h (by simp)) (by simp only; omega)
            rw [e1]
            exact ⟨_, _, rfl⟩

/-- **C74.** Whatever the kernel answers, loading BTF ends. -/
theorem btfLoad_ends (k : Kernel) (fuel : Nat) (hf : 2 ^ 32 < fuel) : ∃ out as, btfLoad k fuel = some (out, as) :=
  btfLoop_ends k fuel 1 ⟨0#32, 0#32, 0#32⟩ [] rfl (fun _ => rfl) (by simpa using hf)

/-- **C74.** On kernels that report the size of the log, BTF is loaded, or the error comes with the whole log; in at most three attempts. -/
theorem btfLoad_complete (v : Verifier) (k : Kernel) (hk : Linux v k) (hr : v.reportsSize = true) (hL : (v.full 1#32).length < 0x3fffffff) (fuel : Nat) :
    ∃ as, btfLoad k (fuel + 3) = some (match v.verdict with
        | .ok fd => .loaded fd
        | .error e => .rejected (.other e) (v.full 1#32), as) ∧ as.length ≤ 3 := by
  have h0 := hk.noLog 1 ⟨0#32, 0#32, 0#32⟩ rfl rfl
  have h1 := hk.noLogSize 1 ⟨0#32, 0#32, 0#32⟩ rfl
  have h1' : (k 1 ⟨0#32, 0#32, 0#32⟩).trueSize = 0#32 := by rcases h1 with h | h <;> exact h
  have hres : ∀ (n : Nat) (a : Attr) (b : Bytes) (f : Nat), a.logLevel = 1#32 → a.logSize ≤ 0x3fffffff#32 → Fits v 1#32 a.logSize → ∀ e, v.verdict = .error e →
      btfLoop k (f + 1) n a b = some (.rejected (.other e) (v.full 1#32), [a]) := by
    intro n a b f ha hs hf e hv
    obtain ⟨g1, g2⟩ := hk.fits n a (by simp [ha]) hs (by rw [ha]; exact hf)
    have g3 := hk.size n a (by simp [ha]) hs
    rw [if_pos hr, ha] at g3
    rw [btfLoop]
    rw [ha] at g2
    simp only [g1, g2, g3, Verifier.result, hv]
    have hts : (BitVec.ofNat 32 ((v.full 1#32).length + 1)).toNat = (v.full 1#32).length + 1 := by rw [BitVec.toNat_ofNat]; omega
    rw [if_pos ⟨by intro e; rw [e] at hts; simp at hts, by rw [BitVec.le_def, hts]; exact hf⟩]
    rw [if_pos (by simp [ha]), cString_buffer (v.noNul _) hf]
  unfold btfLoad
  rw [btfLoop]
  simp only [h0, h1', Verifier.result]
  cases hv : v.verdict with
  | ok fd => exact ⟨_, rfl, by simp⟩
  | error e =>
    simp only [ne_eq, not_true_eq_false, false_and, if_false, List.length_nil, Nat.not_lt_zero]
    by_cases hf : Fits v 1#32 (guess 0)
    · rw [hres 2 ⟨1#32, guess 0, 0#32⟩ _ (fuel + 1) rfl (by decide) hf e hv]
      exact ⟨_, rfl, by simp⟩
    · have g1 := hk.short 2 ⟨1#32, guess 0, 0#32⟩ (by simp) (by decide) hf
      have g3 := hk.size 2 ⟨1#32, guess 0, 0#32⟩ (by simp) (by decide)
      rw [if_pos hr] at g3
      have hts : (BitVec.ofNat 32 ((v.full 1#32).length + 1)).toNat = (v.full 1#32).length + 1 := by rw [BitVec.toNat_ofNat]; omega
      have hf' : ¬ ((v.full 1#32).length + 1 ≤ 0x10000) := hf
      have hne : BitVec.ofNat 32 ((v.full 1#32).length + 1) ≠ 0#32 := by intro e; rw [e] at hts; simp at hts
      rw [btfLoop]
      simp only [g1, g3]
      rw [if_neg (by rintro ⟨_, h⟩; rw [BitVec.le_def, hts] at h; exact hf h), if_neg (by simp), if_neg (by rw [if_pos (by simp), buffer_length]; decide)]
      rw [if_pos hne]
      rw [hres 3 ⟨1#32, BitVec.ofNat 32 ((v.full 1#32).length + 1), BitVec.ofNat 32 ((v.full 1#32).length + 1)⟩ _ fuel rfl
        (by rw [BitVec.le_def, hts]; show _ ≤ 0x3fffffff; omega) (by unfold Fits; simp only; omega) e hv]
      exact ⟨_, rfl, by simp⟩

/-! ## errors -/

theorem mem_takeWhile_of {p : Byte → Bool} {l : Bytes} {x : Byte} (h : x ∈ l.takeWhile p) : p x = true := by
  induction l with
  | nil => cases h
  | cons a l ih =>
    rw [List.takeWhile_cons] at h
    split at h
    · rename_i ha
      rcases List.mem_cons.mp h with h | h
      · rw [h]; exact ha
      · exact ih h
    · cases h

theorem filter_dropWhile (l : Bytes) : (l.dropWhile isSpace).filter (!isSpace ·) = l.filter (!isSpace ·) := by
  induction l with
  | nil => rfl
  | cons a l ih =>
    rw [List.dropWhile_cons]
    split
    · rename_i h
      rw [ih, List.filter_cons, if_neg (by simp [h])]
    · rfl

theorem filter_trimRight (l : Bytes) : (trimRight l).filter (!isSpace ·) = l.filter (!isSpace ·) := by
  unfold trimRight
  rw [List.filter_reverse, filter_dropWhile, List.filter_reverse, List.reverse_reverse]

theorem filter_trim (l : Bytes) : (trim l).filter (!isSpace ·) = l.filter (!isSpace ·) := by
  unfold trim
  rw [filter_trimRight, filter_dropWhile]

theorem splitLines_ne (l : Bytes) : splitLines l ≠ [] := by
  induction l with
  | nil => simp [splitLines]
  | cons a l ih =>
    rw [splitLines]
    split
    · simp
    · split <;> simp

theorem splitLines_join (l : Bytes) : [10#8].intercalate (splitLines l) = l := by
  induction l with
  | nil => rfl
  | cons a l ih =>
    rw [splitLines]
    split
    · rename_i h
      cases hs : splitLines l with
      | nil => exact absurd hs (splitLines_ne l)
      | cons x xs =>
        rw [hs] at ih
        rw [← ih, h]
        simp [List.intercalate, List.intersperse]
    · cases hs : splitLines l with
      | nil => exact absurd hs (splitLines_ne l)
      | cons x xs =>
        rw [hs] at ih
        simp only
        rw [← ih]
        cases xs <;> simp [List.intercalate, List.intersperse]

theorem splitLines_noNl (l : Bytes) : ∀ x ∈ splitLines l, 10#8 ∉ x := by
  induction l with
  | nil => intro x hx; simp [splitLines] at hx; simp [hx]
  | cons a l ih =>
    intro x hx
    rw [splitLines] at hx
    split at hx
    · rcases List.mem_cons.mp hx with hx | hx
      · simp [hx]
      · exact ih x hx
    · rename_i ha
      cases hs : splitLines l with
      | nil => exact absurd hs (splitLines_ne l)
      | cons y ys =>
        rw [hs] at hx ih
        rcases List.mem_cons.mp hx with hx | hx
        · rw [hx]
          intro h
          rcases List.mem_cons.mp h with h | h
          · exact ha h.symm
          · exact ih y List.mem_cons_self h
        · exact ih x (List.mem_cons_of_mem _ hx)

theorem trimRight_prefix (l : Bytes) : trimRight l <+: l := by
  unfold trimRight
  have := List.dropWhile_suffix (p := isSpace) (l := l.reverse)
  have := List.reverse_prefix.mpr this
  rwa [List.reverse_reverse] at this

theorem trimRight_end (l : Bytes) : ∀ x, (trimRight l).getLast? = some x → isSpace x = false := by
  intro x hx
  unfold trimRight at hx
  rw [List.getLast?_reverse] at hx
  cases hd : l.reverse.dropWhile isSpace with
  | nil => rw [hd] at hx; cases hx
  | cons a as =>
    rw [hd] at hx
    cases hx
    have := List.head_dropWhile_not isSpace (l := l.reverse) (by rw [hd]; simp)
    simpa [hd] using this

theorem mem_intersperse {s x : Bytes} {l : List Bytes} (h : x ∈ l) : x ∈ l.intersperse s := by
  induction l with
  | nil => cases h
  | cons a l ih =>
    cases l with
    | nil => simpa using h
    | cons b l =>
      rw [List.intersperse_cons_cons]
      rcases List.mem_cons.mp h with h | h
      · rw [h]; exact List.mem_cons_self
      · exact List.mem_cons_of_mem _ (List.mem_cons_of_mem _ (ih h))

theorem filter_lines (ls : List Bytes) : ((ls.map trimRight).flatten.filter (!isSpace ·)) = ([10#8].intercalate ls).filter (!isSpace ·) := by
  induction ls with
  | nil => rfl
  | cons a ls ih =>
    rw [List.map_cons, List.flatten_cons, List.filter_append, filter_trimRight, ih]
    cases ls with
    | nil => simp [List.intercalate]
    | cons b ls =>
      have : [10#8].intercalate (a :: b :: ls) = a ++ (10#8 :: [10#8].intercalate (b :: ls)) := by
        simp [List.intercalate, List.intersperse]
      rw [this, List.filter_append, List.filter_cons, if_neg (by decide)]

theorem errorLog_raw (log : Bytes) :
    ∃ raw : List Bytes, (∃ a b, cString log = a ++ [10#8].intercalate raw ++ b ∧ (∀ c ∈ a, isSpace c = true) ∧ (∀ c ∈ b, isSpace c = true)) ∧
      errorLog log = raw.map trimRight ∧ (∀ l ∈ errorLog log, 10#8 ∉ l ∧ 0#8 ∉ l ∧ ∀ x, l.getLast? = some x → isSpace x = false) ∧
      ((errorLog log).flatten.filter (!isSpace ·)) = (cString log).filter (!isSpace ·) := by
  have hnul : 0#8 ∉ cString log := by
    intro h
    have := mem_takeWhile_of h
    simp at this
  have htrim : ∃ a b, cString log = a ++ trim (cString log) ++ b ∧ (∀ c ∈ a, isSpace c = true) ∧ ∀ c ∈ b, isSpace c = true := by
    generalize cString log = l
    unfold trim trimRight
    refine ⟨l.takeWhile isSpace, ((l.dropWhile isSpace).reverse.takeWhile isSpace).reverse, ?_, fun c hc => mem_takeWhile_of hc, fun c hc => mem_takeWhile_of (List.mem_reverse.mp hc)⟩
    rw [List.append_assoc, ← List.reverse_append, List.takeWhile_append_dropWhile, List.reverse_reverse, List.takeWhile_append_dropWhile]
  obtain ⟨a, b, h1, h2, h3⟩ := htrim
  by_cases he : trim (cString log) = []
  · refine ⟨[], ⟨a, b, ?_, h2, h3⟩, ?_, ?_, ?_⟩
    · rw [he] at h1; exact h1
    · unfold errorLog; rw [if_pos he]; rfl
    · unfold errorLog; rw [if_pos he]; intro l hl; cases hl
    · rw [← filter_trim (cString log), he]; unfold errorLog; rw [if_pos he]; rfl
  · have hE : errorLog log = (splitLines (trim (cString log))).map trimRight := by unfold errorLog; rw [if_neg he]
    refine ⟨splitLines (trim (cString log)), ⟨a, b, by rw [splitLines_join]; exact h1, h2, h3⟩, hE, ?_, ?_⟩
    · intro l hl
      rw [hE] at hl
      obtain ⟨x, hx, rfl⟩ := List.mem_map.mp hl
      refine ⟨fun h => splitLines_noNl _ x hx ((trimRight_prefix x).subset h), ?_, trimRight_end x⟩
      intro h
      have hx0 := (trimRight_prefix x).subset h
      apply hnul
      rw [h1, ← splitLines_join (trim (cString log))]
      refine List.mem_append_left _ (List.mem_append_right _ ?_)
      unfold List.intercalate
      rw [List.mem_flatten]
      exact ⟨x, mem_intersperse hx, hx0⟩
    · rw [hE, ← filter_trim (cString log)]
      conv => rhs; rw [← splitLines_join (trim (cString log))]
      generalize splitLines (trim (cString log)) = ls
      exact filter_lines ls
theorem isSpace_blank {l : Bytes} (h : ∀ c ∈ l, isSpace c = true) : Blank l := by
  intro c hc
  have := h c hc
  simp only [isSpace, Bool.or_eq_true, decide_eq_true_eq] at this
  rcases this with (((h | h) | h) | h) | h <;> simp [h]

theorem blank_isSpace {c : Byte} (h : Blank [c]) : isSpace c = true := by
  have := h c List.mem_cons_self
  simp only [isSpace, Bool.or_eq_true, decide_eq_true_eq]
  rcases this with h | h | h | h | h <;> simp [h]

theorem trimRight_split (l : Bytes) : ∃ t, l = trimRight l ++ t ∧ ∀ c ∈ t, isSpace c = true := by
  refine ⟨(l.reverse.takeWhile isSpace).reverse, ?_, fun c hc => mem_takeWhile_of (List.mem_reverse.mp hc)⟩
  unfold trimRight
  rw [← List.reverse_append, List.takeWhile_append_dropWhile, List.reverse_reverse]

theorem cString_split (b : Bytes) : ∃ rest, b = cString b ++ rest ∧ (rest = [] ∨ rest.head? = some 0#8) := by
  refine ⟨b.dropWhile (· ≠ 0#8), (List.takeWhile_append_dropWhile).symm, ?_⟩
  cases hd : b.dropWhile (· ≠ 0#8) with
  | nil => exact Or.inl rfl
  | cons a as =>
    right
    have := List.head_dropWhile_not (fun x : Byte => decide (x ≠ 0#8)) (l := b) (by rw [hd]; simp)
    simp only [hd] at this
    have : ¬ ¬ a = 0#8 := of_decide_eq_false this
    simp [Decidable.not_not.mp this]

/-- **C74.** The lines of a `VerifierError` are the lines of the text in the buffer up to its terminator, less surrounding white space and white space at the end of lines: nothing else is
lost or added. -/
theorem errorLog_lines (log : Bytes) :
    ∃ (text rest a b : Bytes) (parts : List (Bytes × Bytes)), log = text ++ rest ∧ 0#8 ∉ text ∧ (rest = [] ∨ rest.head? = some 0#8) ∧
      text = a ++ [10#8].intercalate (parts.map fun p => p.1 ++ p.2) ++ b ∧ Blank a ∧ Blank b ∧ (∀ p ∈ parts, Blank p.2) ∧
      errorLog log = parts.map Prod.fst ∧ (∀ l ∈ errorLog log, 10#8 ∉ l ∧ ∀ x, l.getLast? = some x → ¬ Blank [x]) := by
  obtain ⟨raw, ⟨a, b, h1, h2, h3⟩, h4, h5, _⟩ := errorLog_raw log
  obtain ⟨rest, r1, r2⟩ := cString_split log
  have hparts : ∃ parts : List (Bytes × Bytes), raw = parts.map (fun p => p.1 ++ p.2) ∧ (∀ p ∈ parts, Blank p.2) ∧ raw.map trimRight = parts.map Prod.fst := by
    clear h1 h4
    induction raw with
    | nil => exact ⟨[], rfl, by simp, rfl⟩
    | cons x xs ih =>
      obtain ⟨ps, p1, p2, p3⟩ := ih
      obtain ⟨t, t1, t2⟩ := trimRight_split x
      refine ⟨(trimRight x, t) :: ps, ?_, ?_, ?_⟩
      · rw [List.map_cons, ← p1, ← t1]
      · intro p hp
        rcases List.mem_cons.mp hp with hp | hp
        · rw [hp]; exact isSpace_blank t2
        · exact p2 p hp
      · rw [List.map_cons, List.map_cons, p3]
  obtain ⟨parts, p1, p2, p3⟩ := hparts
  refine ⟨cString log, rest, a, b, parts, r1, ?_, r2, by rw [← p1]; exact h1, isSpace_blank h2, isSpace_blank h3, p2, by rw [h4, p3], ?_⟩
  · intro h
    have := mem_takeWhile_of h
    simp at this
  · intro l hl
    obtain ⟨g1, _, g3⟩ := h5 l hl
    refine ⟨g1, fun x hx hb => ?_⟩
    have := g3 x hx
    rw [blank_isSpace hb] at this
    cases this

/-! ## examples -/

/-- A kernel for a given verifier, for the examples. -/
def exKernel (v : Verifier) : Kernel := fun _ a =>
  if a.logLevel = 0#32 then ⟨v.result, a.trueSize, []⟩
  else if 0x3fffffff#32 < a.logSize then ⟨.error (.other einval), 0#32, []⟩
  else
    let ts := if v.reportsSize then BitVec.ofNat 32 ((v.full a.logLevel).length + 1) else a.trueSize
    if (v.full a.logLevel).length + 1 ≤ a.logSize.toNat then ⟨v.result, ts, v.full a.logLevel⟩ else ⟨.error .noSpace, ts, (v.full a.logLevel).take (a.logSize.toNat - 1)⟩

/-- Every verifier has a kernel. -/
theorem exKernel_linux (v : Verifier) : Linux v (exKernel v) where
  noLog n a h _ := by simp [exKernel, h]
  noLogSize n a h := by simp [exKernel, h]
  tooBig n a h1 h2 := by simp [exKernel, h1, h2]
  fits n a h1 h2 h3 := by
    have : ¬ 0x3fffffff#32 < a.logSize := BitVec.not_lt.mpr h2
    unfold Fits at h3
    simp [exKernel, h1, this, h3]
  short n a h1 h2 h3 := by
    have : ¬ 0x3fffffff#32 < a.logSize := BitVec.not_lt.mpr h2
    unfold Fits at h3
    simp [exKernel, h1, this, h3]
  size n a h1 h2 := by
    have : ¬ 0x3fffffff#32 < a.logSize := BitVec.not_lt.mpr h2
    unfold exKernel
    simp only [if_neg h1, if_neg this]
    split <;> rfl

/-- A verifier that rejects the program with error 13 and a log of 200000 bytes, on an old kernel. -/
def exVerifier : Verifier := ⟨.error 13, fun _ => List.replicate 200000 0x61#8, false, by intro l h; exact absurd (List.eq_of_mem_replicate h) (by decide)⟩

/-- Its log is returned in full. -/
example : ∃ as, load (exKernel exVerifier) ⟨0#32, 0#32, false⟩ 30 = some (.rejected (.other 13) (List.replicate 200000 0x61#8), as) ∧ as.length ≤ 16 := by
  obtain ⟨as, h, h2, _⟩ := load_complete exVerifier _ (exKernel_linux _) ⟨0#32, 0#32, false⟩ rfl (by unfold exVerifier; simp only [List.length_replicate]; omega)
  exact ⟨as, h, h2⟩

/-- " a\n\tb \n\0c" has the lines "a" and "\tb". -/
example : errorLog [0x20#8, 0x61#8, 0x0a#8, 0x09#8, 0x62#8, 0x20#8, 0x0a#8, 0#8, 0x63#8] = [[0x61#8], [0x09#8, 0x62#8]] := by decide

/-- **C74.** The summary of an error shows the last line that is not statistics, and says how many lines it does not show. -/
theorem summary_last (log : List Bytes) (init : List Bytes) (l : Bytes) (hnp : ¬ statsPrefix <+: l) (h : log = init ++ [l] ∨ ∃ p, statsPrefix <+: p ∧ log = init ++ [l, p]) :
    ∃ shown, summary log = (shown.map trimSpace, log.length - shown.length) ∧ shown.getLast? = some l ∧ shown <:+ init ++ [l] ∧ (shown.length = 1 ∨ shown.length = 2) := by
  have hpre : ∀ x, isProcessed x = true ↔ statsPrefix <+: x := by intro x; unfold isProcessed; rw [List.isPrefixOf_iff_prefix]; exact Iff.rfl
  have hl : isProcessed l = false := by
    cases h : isProcessed l with
    | false => rfl
    | true => exact absurd ((hpre l).mp h) hnp
  have hw : withoutStats log = init ++ [l] := by
    unfold withoutStats
    rcases h with h | ⟨p, hp, h⟩
    · rw [h]; simp [hl]
    · have hp := (hpre p).mpr hp
      rw [h]
      have : init ++ [l, p] = (init ++ [l]) ++ [p] := by simp
      rw [this]; simp [hp]
  unfold summary
  simp only [hw]
  rw [if_neg (by simp)]
  split
  · rename_i hc
    refine ⟨_, rfl, ?_, List.drop_suffix _ _, Or.inr ?_⟩
    · rw [List.getLast?_drop, if_neg (by simp only [List.length_append, List.length_singleton] at hc ⊢; omega)]; simp
    · rw [List.length_drop]; simp only [List.length_append, List.length_singleton] at hc ⊢; omega
  · refine ⟨_, rfl, ?_, List.drop_suffix _ _, Or.inl ?_⟩
    · rw [List.getLast?_drop, if_neg (by simp)]; simp
    · rw [List.length_drop]; simp only [List.length_append, List.length_singleton]; omega

end Ebpf.ProgLoad
