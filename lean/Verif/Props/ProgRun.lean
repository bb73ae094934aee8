import Verif.Model.ProgRun
/-!
# C91: running programs
-/
namespace Ebpf.ProgRun

/-- Kernels: errors other than interruptions have other numbers, sizes have 32 bits, the context of a Syscall program keeps its size. -/
structure Kernel.Ok (k : Kernel) : Prop where
  notIntr : ∀ t q, k.outcome t q ≠ .error EINTR
  small : ∀ t q r, k.outcome t q = .ok r → r.data.length < 2 ^ 32
  sameCtx : ∀ t q r, k.isSyscall q.prog = true → k.outcome t q = .ok r → r.ctx.length = q.ctx.length

/-- Options as documented: `DataOut` is nil or has been allocated, `ContextOut` is nil or a pointer to (or slice of) something of fixed size. Buffers are shorter than 4 GiB. -/
structure RunOptions.Sane (o : RunOptions) : Prop where
  out : ∀ s, o.dataOut = some s → 0 < s.len ∧ s.len ≤ s.mem.length ∧ s.len < 2 ^ 32
  ctx : ∀ b, o.context = some (some b) → b.length < 2 ^ 32
  ctxOut : ∀ c, o.contextOut = some c → c.readable = true ∧ ∃ n, c.size = some n ∧ n < 2 ^ 32

/-- What was asked for. -/
def asked (p : Prog) (o : RunOptions) : Req :=
  ⟨p.fd, o.data, (o.context.getD none).getD [], o.repeats, o.flags, o.cpu, o.batch⟩

section
variable (k : Kernel) (hk : k.Ok)
include hk

theorem testRun_intr (w w' : World) (a a' : Attr) (h : testRun k w a = (w', a', some EINTR)) :
    a' = a ∧ w' = { w with time := w.time + 1 } ∧ k.signal w.time = true ∧ (k.doneFirst = true → a.repeats.toNat > 1) := by
  unfold testRun at h
  have e1 : ENOTSUPP ≠ EINTR := by decide
  have e2 : EINVAL ≠ EINTR := by decide
  have e3 : EFAULT ≠ EINTR := by decide
  have e4 : ENOSPC ≠ EINTR := by decide
  split at h
  · simp_all
  split at h
  · simp_all
  split at h
  · split at h
    · rename_i e he
      simp only [Prod.mk.injEq, Option.some.injEq] at h
      rw [h.2.2] at he
      exact (hk.notIntr _ _ he).elim
    · rename_i r hr
      split at h
      · simp [finishSyscall] at h
      · split at h
        · rename_i hs
          simp only [Prod.mk.injEq] at h
          simp only [Bool.and_eq_true, Bool.or_eq_true, Bool.not_eq_true', decide_eq_true_eq] at hs
          refine ⟨h.2.1.symm, h.1.symm, hs.1, fun hd => ?_⟩
          rcases hs.2 with h1 | h1
          · simp [hd] at h1
          · exact h1
        · unfold finish finishCtx at h
          exfalso
          dsimp only at h
          split at h
          · simp_all
          · split at h
            · simp_all
            · simp only [Prod.mk.injEq] at h
              have := h.2.2
              split at this <;> simp_all
  · simp_all

/-- How the loop's end follows from the last system call. -/
def endOf (a : Attr) : Option Nat → LoopEnd
  | none => .done a
  | some e => if e = ENOTSUPP then .failed .notSupported else .failed (.sys e)

theorem loop_ends (a : Attr) (hd : k.doneFirst = true ∨ a.repeats.toNat > 1) : ∀ (fuel : Nat) (w : World) (r : Nat) (w2 : World) (r2 : Nat) (le : LoopEnd), loop k fuel w a r = some (w2, r2, le) →
    ∃ n a2 e, r2 = r + n ∧ (∀ i < n, k.signal (w.time + i) = true) ∧ testRun k { w with time := w.time + n } a = (w2, a2, e) ∧ e ≠ some EINTR ∧ le = endOf a2 e := by
  intro fuel
  induction fuel with
  | zero => intro w r w2 r2 le h; simp [loop] at h
  | succ fuel ih =>
    intro w r w2 r2 le h
    simp only [loop] at h
    rcases ht : testRun k w a with ⟨w1, a1, _ | e⟩
    · rw [ht] at h
      simp only [Option.some.injEq, Prod.mk.injEq] at h
      exact ⟨0, a1, none, by omega, by simp, by simpa [h.1] using ht, by simp, by simp [endOf, h.2.2]⟩
    · rw [ht] at h
      simp only at h
      split at h
      · rename_i he
        subst he
        obtain ⟨ha, hw, hs, hr⟩ := testRun_intr k hk w w1 a a1 ht
        subst ha
        have hr : a1.repeats.toNat > 1 := hd.elim hr id
        rw [if_neg (by omega)] at h
        obtain ⟨n, a2, e, h1, h2, h3, h4, h5⟩ := ih w1 (r + 1) w2 r2 le h
        subst hw
        refine ⟨n + 1, a2, e, by omega, fun i hi => ?_, ?_, h4, h5⟩
        · rcases Nat.eq_zero_or_pos i with h0 | h0
          · rw [h0]; exact hs
          · have := h2 (i - 1) (by omega)
            simp only at this
            have e1 : w.time + 1 + (i - 1) = w.time + i := by omega
            rwa [e1] at this
        · rw [← h3]
          simp only
          rw [show w.time + 1 + n = w.time + (n + 1) by omega]
      · rename_i he
        split at h
        · rename_i he2
          simp only [Option.some.injEq, Prod.mk.injEq] at h
          refine ⟨0, a1, some e, by omega, by simp, by simpa [h.1] using ht, by simpa using he, ?_⟩
          simp only [endOf, if_pos he2, ← h.2.2]
        · rename_i he2
          simp only [Option.some.injEq, Prod.mk.injEq] at h
          refine ⟨0, a1, some e, by omega, by simp, by simpa [h.1] using ht, by simpa using he, ?_⟩
          simp only [endOf, if_neg he2, ← h.2.2]

/-- The loop ends at the latest when no signal comes. -/
theorem loop_returns (a : Attr) : ∀ (fuel : Nat) (w : World) (r n : Nat), k.signal (w.time + n) = false → n < fuel → loop k fuel w a r ≠ none := by
  intro fuel
  induction fuel with
  | zero => intro w r n _ h; omega
  | succ fuel ih =>
    intro w r n hs hn
    simp only [loop]
    rcases ht : testRun k w a with ⟨w1, a1, _ | e⟩
    · simp
    · simp only
      split
      · rename_i he
        subst he
        obtain ⟨ha, hw, hs2, -⟩ := testRun_intr k hk w w1 a a1 ht
        split
        · simp
        · subst ha
          rcases Nat.eq_zero_or_pos n with h0 | h0
          · subst h0
            simp_all
          · refine ih w1 (r + 1) (n - 1) ?_ (by omega)
            rw [hw]
            simp only
            rwa [show w.time + 1 + (n - 1) = w.time + n by omega]
      · split <;> simp

end

/-! ### One system call -/

/-- Arguments which Linux refuses, whatever the program does: contexts before there were any, and what Syscall programs can't be given. -/
def NotAccepted (k : Kernel) (p : Prog) (o : RunOptions) : Prop :=
  (k.clamps = false ∧ ((o.context.getD none).getD [] ≠ [] ∨ ∃ c n, o.contextOut = some c ∧ c.size = some n ∧ 0 < n)) ∨
  (p.syscall = true ∧ (o.data ≠ [] ∨ o.dataOut ≠ none ∨ o.repeats ≠ 0 ∨ o.flags ≠ 0 ∨ (o.context = none ∧ ∃ c n, o.contextOut = some c ∧ c.size = some n ∧ 0 < n)))

/-- The output of the program doesn't fit where it was asked to go. -/
def TooBig (o : RunOptions) (r : Res) : Prop :=
  (∃ s, o.dataOut = some s ∧ s.len < r.data.length) ∨ ∃ c n, o.contextOut = some c ∧ c.size = some n ∧ n < r.ctx.length

/-- Why running a program may fail. -/
def Explained (k : Kernel) (t : Nat) (p : Prog) (probe : Bool) (o : RunOptions) : RunErr → Prop
  | .tooLong => 2 ^ 32 ≤ o.data.length
  | .probe => probe = true
  | .context => o.context = some none
  | .mismatch => p.syscall = true ∧ ∃ b c n, o.context = some (some b) ∧ o.contextOut = some c ∧ c.size = some n ∧ b.length ≠ n
  | .notSupported => k.runnable p.fd = false ∨ k.outcome t (asked p o) = .error ENOTSUPP
  | .sys e => (e = EINVAL ∧ NotAccepted k p o) ∨ k.outcome t (asked p o) = .error e ∨ (e = ENOSPC ∧ ∃ r, k.outcome t (asked p o) = .ok r ∧ TooBig o r)
  | .panicOverrun => k.clamps = false ∧ ∃ r s, k.outcome t (asked p o) = .ok r ∧ o.dataOut = some s ∧ s.mem.length < r.data.length
  | .panicSize => False
  | .decode => False

/-- A result is that of the program's last run: all of it. -/
def Shows (p : Prog) (o : RunOptions) (r : Res) (x : Result) : Prop :=
  x.ret = r.ret ∧ (p.syscall = false → x.dur = r.dur) ∧ x.dataOut = o.dataOut.map (fun _ => r.data) ∧
  (o.contextOut = none → x.contextOut = none) ∧
  (∀ c n, o.contextOut = some c → c.size = some n → x.contextOut = some ((r.ctx ++ List.replicate n 0).take n) ∧ (0 < n → r.ctx.length ≤ n))

theorem ofNat_toNat (n : Nat) (h : n < 2 ^ 32) : (BitVec.ofNat 32 n).toNat = n := by
  rw [BitVec.toNat_ofNat]; exact Nat.mod_eq_of_lt h

theorem read_slice (m : Mem) (b : Buf) (l : List Byte) (hl : l.length < 2 ^ 32) (hm : m b = l) : readBuf m (slicePtr b l.length) (BitVec.ofNat 32 l.length).toNat = some l := by
  rw [ofNat_toNat _ hl]
  unfold slicePtr readBuf
  split
  · rename_i h
    split at h
    · rename_i h0; rw [List.length_eq_zero_iff] at h0; rw [h0]
    · simp at h
  · rename_i b' h
    split at h
    · simp at h
    · simp only [Option.some.injEq] at h
      subst h
      rw [hm]
      simp

/-- What is claimed of the outcome of a run. -/
def Good (k : Kernel) (t : Nat) (p : Prog) (probe : Bool) (o : RunOptions) (over : Bool) : Except RunErr Result → Prop
  | .ok x => over = false ∧ ∃ r, k.outcome t (asked p o) = .ok r ∧ Shows p o r x
  | .error e => (over = true ↔ e = .panicOverrun) ∧ Explained k t p probe o e

/-- What `run` makes of the last system call. -/
def outcomeOf (w : World) (a : Attr) (place : Buf) (o : RunOptions) (e : Option Nat) : Except RunErr Result :=
  match endOf a e with
  | .done a => collect w a place o
  | .failed e => .error e

theorem outcome_error (w : World) (a : Attr) (place : Buf) (o : RunOptions) (e : Nat) : outcomeOf w a place o (some e) = .error (if e = ENOTSUPP then .notSupported else .sys e) := by
  unfold outcomeOf endOf
  split
  · rename_i h; simp only at h; split at h <;> simp at h
  · rename_i h; simp only at h; split at h <;> simp_all

/-- Shielding. -/
theorem shield_cases (p : Prog) (a0 a : Attr) (ci : Option (List Byte)) (co : Option Nat) (place : Buf) (hs : shield p a0 ci co = .ok (a, place)) :
    (p.syscall = true ∧ (∃ i, ci = some i ∧ co = some i.length) ∧ a = { a0 with ctxOut := none, ctxSizeOut := 0 } ∧ place = .ctxIn) ∨
    ((p.syscall = true → ci = none ∨ co = none) ∧ a = a0 ∧ place = .ctxOut) := by
  cases hp : p.syscall with
  | false =>
    simp only [shield, hp, Except.ok.injEq, Prod.mk.injEq] at hs
    exact Or.inr ⟨by simp, hs.1.symm, hs.2.symm⟩
  | true =>
    rcases ci with _ | i
    · simp only [shield, hp, Except.ok.injEq, Prod.mk.injEq] at hs
      exact Or.inr ⟨by simp, hs.1.symm, hs.2.symm⟩
    rcases co with _ | n
    · simp only [shield, hp, Except.ok.injEq, Prod.mk.injEq] at hs
      exact Or.inr ⟨by simp, hs.1.symm, hs.2.symm⟩
    simp only [shield, hp] at hs
    split at hs
    · simp at hs
    · rename_i h
      simp only [Except.ok.injEq, Prod.mk.injEq] at hs
      exact Or.inl ⟨rfl, ⟨i, rfl, by rw [Classical.not_not.mp h]⟩, hs.1.symm, hs.2.symm⟩

theorem write_all (m : Mem) (b : Buf) (l : List Byte) (h : l.length ≤ (m b).length) : writeBuf m b l b = l ++ (m b).drop l.length := by
  simp [writeBuf, List.take_of_length_le h]

theorem take_zeros (l : List Byte) (n : Nat) (h : l.length ≤ n) : l ++ (List.replicate n (0 : Byte)).drop l.length = (l ++ List.replicate n 0).take n := by
  rw [List.take_append, List.take_of_length_le h, List.drop_replicate, List.take_replicate]
  congr 2; omega

theorem write_length (m : Mem) (b : Buf) (l : List Byte) (x : Buf) : (writeBuf m b l x).length = (m x).length := by
  unfold writeBuf
  split
  · rename_i h; subst h; simp; omega
  · rfl

theorem finish_eq (k : Kernel) (w : World) (a : Attr) (r : Res) (cl : Bool) (h : cl = (k.clamps && a.dataSizeOut != 0 && decide (r.data.length > a.dataSizeOut.toNat))) :
    finish k w a r = if cl then (copyOut w a.dataOut (r.data.take (if cl then a.dataSizeOut.toNat else r.data.length)), { a with dataSizeOut := BitVec.ofNat 32 r.data.length, retval := r.ret, duration := r.dur }, some ENOSPC)
      else finishCtx (copyOut w a.dataOut (r.data.take (if cl then a.dataSizeOut.toNat else r.data.length))) { a with dataSizeOut := BitVec.ofNat 32 r.data.length, retval := r.ret, duration := r.dur } r := by
  subst h; rfl

theorem call_good (k : Kernel) (hk : k.Ok) (p : Prog) (hp : k.isSyscall p.fd = p.syscall) (probe : Bool) (o : RunOptions) (ho : o.Sane) (hdata : o.data.length < 2 ^ 32)
    (ci : Option (List Byte)) (co : Option Nat) (hci : ctxInOf o = .ok ci) (hco : ctxOutOf o = .ok co) (a : Attr) (place : Buf) (hs : shield p (attrOf p o ci co) ci co = .ok (a, place))
    (t : Nat) (w2 : World) (a2 : Attr) (e : Option Nat) (h : testRun k { mem := memOf o ci co, overrun := false, time := t } a = (w2, a2, e)) (he : e ≠ some EINTR) :
    Good k t p probe o w2.overrun (outcomeOf w2 a2 place o e) := by
  have hcl : (ci.getD []).length < 2 ^ 32 := by
    unfold ctxInOf at hci
    split at hci
    · cases hci; simp
    · simp at hci
    · rename_i b hb
      cases hci
      exact ho.ctx _ hb
  have hctx : (o.context.getD none).getD [] = ci.getD [] ∧ (ci = none → o.context = none) := by
    unfold ctxInOf at hci
    split at hci <;> simp_all
    cases hci
    simp
  have hcos : (co = none ∧ o.contextOut = none) ∨ ∃ c n, co = some n ∧ o.contextOut = some c ∧ c.size = some n ∧ c.readable = true ∧ n < 2 ^ 32 := by
    unfold ctxOutOf at hco
    split at hco
    · rename_i hc
      cases hco; exact Or.inl ⟨rfl, hc⟩
    · rename_i c hc
      split at hco
      · simp at hco
      · rename_i n hn
        cases hco
        obtain ⟨hr, m, hm, hm2⟩ := ho.ctxOut c hc
        rw [hn] at hm; cases hm
        exact Or.inr ⟨c, n, rfl, hc, hn, hr, hm2⟩
  have hsh := shield_cases p _ a ci co place hs
  have f1 : a.progFd = p.fd := by rcases hsh with ⟨-, -, rfl, -⟩ | ⟨-, rfl, -⟩ <;> rfl
  have f2 : readBuf (memOf o ci co) a.dataIn a.dataSizeIn.toNat = some o.data := by
    have : readBuf (memOf o ci co) (slicePtr .dataIn o.data.length) (BitVec.ofNat 32 o.data.length).toNat = some o.data := read_slice _ _ _ hdata rfl
    rcases hsh with ⟨-, -, rfl, -⟩ | ⟨-, rfl, -⟩ <;> exact this
  have f3 : readBuf (memOf o ci co) a.ctxIn a.ctxSizeIn.toNat = some (ci.getD []) := by
    have : readBuf (memOf o ci co) (slicePtr .ctxIn (ci.getD []).length) (BitVec.ofNat 32 (ci.getD []).length).toNat = some (ci.getD []) := read_slice _ _ _ hcl rfl
    rcases hsh with ⟨-, -, rfl, -⟩ | ⟨-, rfl, -⟩ <;> exact this
  have f4 : reqOf a o.data (ci.getD []) = asked p o := by
    unfold asked; rw [hctx.1]
    rcases hsh with ⟨-, -, rfl, -⟩ | ⟨-, rfl, -⟩ <;> rfl
  have fo : a.dataOut = slicePtr .dataOut (outLen o) ∧ a.dataSizeOut = BitVec.ofNat 32 (outLen o) ∧ a.ctxIn = slicePtr .ctxIn (ci.getD []).length ∧ a.dataIn = slicePtr .dataIn o.data.length ∧ a.repeats = o.repeats ∧ a.flags = o.flags ∧ a.ctxSizeIn = BitVec.ofNat 32 (ci.getD []).length := by
    rcases hsh with ⟨-, -, rfl, -⟩ | ⟨-, rfl, -⟩ <;> exact ⟨rfl, rfl, rfl, rfl, rfl, rfl, rfl⟩
  have fs : ∀ b n, (slicePtr b n).isSome = true ↔ n ≠ 0 := by
    intro b n; unfold slicePtr; split <;> simp_all
  have hlen : ∀ s, o.dataOut = some s → outLen o = s.len := by intro s hs; simp [outLen, hs]
  unfold testRun at h
  simp only [f1, f2, f3, f4] at h
  split at h
  · -- there is no way to run it
    rename_i hr
    cases h
    rw [outcome_error]
    refine ⟨by simp, Or.inl (by simpa using hr)⟩
  split at h
  · rename_i hr
    cases h
    rw [outcome_error, if_neg (by decide)]
    refine ⟨by simp, Or.inl ⟨rfl, ?_⟩⟩
    unfold refused at hr
    simp only [f1, hp, Bool.or_eq_true, Bool.and_eq_true, Bool.not_eq_true', fo, fs, bne_iff_ne, ne_eq] at hr
    rcases hr with ⟨h1, h2⟩ | ⟨h1, h2⟩
    · refine Or.inl ⟨h1, ?_⟩
      rcases h2 with h2 | h2
      · left; rw [hctx.1]; simpa [List.length_eq_zero_iff] using h2
      · right
        rcases hsh with ⟨-, -, rfl, -⟩ | ⟨-, rfl, -⟩
        · simp at h2
        · have h2 : (slicePtr .ctxOut (co.getD 0)).isSome = true := h2
          rw [fs] at h2
          rcases hcos with ⟨rfl, -⟩ | ⟨c, n, rfl, hc, hn, -⟩
          · simp at h2
          · exact ⟨c, n, hc, hn, by simp at h2; omega⟩
    · refine Or.inr ⟨h1, ?_⟩
      rcases h2 with (((h2 | h2) | h2) | h2) | h2
      · left; simpa [List.length_eq_zero_iff] using h2
      · right; left
        intro hn; simp [outLen, hn] at h2
      · right; right; right; right
        rcases hsh with ⟨-, -, rfl, -⟩ | ⟨hb, rfl, -⟩
        · simp at h2
        · have h2 : (slicePtr .ctxOut (co.getD 0)).isSome = true := h2
          rw [fs] at h2
          rcases hcos with ⟨rfl, -⟩ | ⟨c, n, rfl, hc, hn, -⟩
          · simp at h2
          · refine ⟨?_, c, n, hc, hn, by simp at h2; omega⟩
            rcases hb h1 with h | h
            · exact hctx.2 h
            · simp at h
      · right; right; left; exact h2
      · right; right; right; left; exact h2
  rename_i hacc
  split at h
  · rename_i er hr
    cases h
    rw [outcome_error]
    split
    · rename_i h; subst h
      exact ⟨by simp, Or.inr hr⟩
    · exact ⟨by simp, Or.inr (Or.inl hr)⟩
  rename_i r hr
  unfold refused at hacc
  simp only [f1, hp, Bool.or_eq_true, Bool.and_eq_true, Bool.not_eq_true', fo, fs, bne_iff_ne, ne_eq, not_or, not_and, Classical.not_not] at hacc
  split at h
  · -- Syscall programs
    rename_i hsys
    rw [hp] at hsys
    cases h
    obtain ⟨-, h2⟩ := hacc
    obtain ⟨⟨⟨⟨h3, h4⟩, h5⟩, h6⟩, h7⟩ := h2 hsys
    have hno : o.dataOut = none := by
      cases hd : o.dataOut with
      | none => rfl
      | some s => have := ho.out s hd; rw [hlen s hd] at h4; omega
    have hsame : r.ctx.length = (ci.getD []).length := by
      have := hk.sameCtx t _ r (by simp only [asked]; rw [hp]; exact hsys) hr
      rw [this]; simp only [asked, hctx.1]
    have hov : (copyOut { mem := memOf o ci co, overrun := false, time := t + 1 } a.ctxIn (r.ctx.take a.ctxSizeIn.toNat)).overrun = false := by
      rw [fo.2.2.1, fo.2.2.2.2.2.2, ofNat_toNat _ hcl]
      unfold slicePtr
      split
      · rfl
      · simp [copyOut, memOf, hsame]
    simp only [outcomeOf, endOf, hov]
    have hdr : ∀ w a, dataResult w a o = .ok none := by intro w a; simp [dataResult, hno]
    unfold collect
    rw [hdr]
    simp only
    rcases hsh with ⟨-, ⟨i, rfl, rfl⟩, rfl, rfl⟩ | ⟨hb, rfl, rfl⟩
    · rcases hcos with ⟨hx, -⟩ | ⟨c, n, hx, hc, hn, hrd, hn2⟩
      · simp at hx
      cases hx
      simp only [ctxResult, hc, hrd, if_true]
      refine ⟨rfl, r, hr, rfl, by simp [hsys], by simp [hno], by simp [hc], ?_⟩
      intro c' n' hc' hn'
      rw [hc] at hc'; cases hc'
      rw [hn] at hn'; cases hn'
      simp only [Option.getD_some] at hsame
      refine ⟨?_, fun _ => by omega⟩
      rw [Option.some.injEq, ← hsame, List.take_left]
      simp only [attrOf, Option.getD_some]
      unfold slicePtr
      split
      · rename_i h0
        have : r.ctx = [] := List.length_eq_zero_iff.mp (by omega)
        rw [this]
        exact List.length_eq_zero_iff.mp h0
      · rw [ofNat_toNat _ (by simpa using hcl), ← hsame, List.take_length]
        simp only [copyOut]
        rw [write_all _ _ _ (by simp [memOf, hsame])]
        simp [memOf, hsame]
    · rcases hcos with ⟨rfl, hc⟩ | ⟨c, n, rfl, hc, hn, hrd, hn2⟩
      · simp only [ctxResult, hc]
        exact ⟨rfl, r, hr, rfl, by simp [hsys], by simp [hno], by simp [hc], by simp [hc]⟩
      · have hcin : ci = none := by rcases hb hsys with h | h; exact h; simp at h
        subst hcin
        have hn0 : n = 0 := by
          have h5 : ¬ (slicePtr .ctxOut n).isSome = true := h5
          rw [fs] at h5; omega
        subst hn0
        simp only [ctxResult, hc, hrd, if_true]
        refine ⟨rfl, r, hr, rfl, by simp [hsys], by simp [hno], by simp [hc], ?_⟩
        intro c' n' hc' hn'
        rw [hc] at hc'; cases hc'
        rw [hn] at hn'; cases hn'
        refine ⟨?_, by omega⟩
        simp [attrOf, slicePtr, copyOut, memOf]
  rename_i hnsys
  rw [hp] at hnsys
  split at h
  · cases h
    exact (he rfl).elim
  -- other programs
  obtain ⟨rfl, rfl⟩ : a = attrOf p o ci co ∧ place = .ctxOut := by
    rcases hsh with ⟨h, -⟩ | ⟨-, h1, h2⟩
    · exact (hnsys h).elim
    · exact ⟨h1, h2⟩
  have hcap : ∀ s, o.dataOut = some s → memOf o ci co .dataOut = s.mem := by intro s hs; simp [memOf, hs]
  have hsm := hk.small t _ r hr
  have hr32 : (BitVec.ofNat 32 r.data.length).toNat = r.data.length := ofNat_toNat _ hsm
  have hol : (BitVec.ofNat 32 (outLen o)).toNat = outLen o := by
    cases hd : o.dataOut with
    | none => simp [outLen, hd]
    | some s => rw [hlen s hd]; exact ofNat_toNat _ (ho.out s hd).2.2
  have hol0 : (BitVec.ofNat 32 (outLen o) != 0) = decide (outLen o ≠ 0) := by
    by_cases h0 : outLen o = 0
    · simp [h0]
    · have : BitVec.ofNat 32 (outLen o) ≠ 0#32 := fun e => by rw [e] at hol; simp at hol; omega
      simp [h0, bne_iff_ne, this]
  obtain ⟨cl, hcb⟩ : ∃ cl, cl = (k.clamps && (attrOf p o ci co).dataSizeOut != 0 && decide (r.data.length > (attrOf p o ci co).dataSizeOut.toNat)) := ⟨_, rfl⟩
  rw [finish_eq k _ _ _ cl hcb] at h
  rw [fo.2.1, hol] at hcb
  have hc : cl = true ↔ (k.clamps = true ∧ outLen o ≠ 0) ∧ r.data.length > outLen o := by
    rw [hcb]
    simp only [Bool.and_eq_true, decide_eq_true_eq, hol0]
  clear hcb
  dsimp only [attrOf] at h
  cases cl with
  | true =>
    -- the data doesn't fit
    simp only [true_iff] at hc
    simp only [if_true, hol] at h
    cases h
    rw [outcome_error, if_neg (by decide)]
    cases hd : o.dataOut with
    | none => exfalso; apply hc.1.2; simp [outLen, hd]
    | some s =>
      have ⟨h1, h2, h3⟩ := ho.out s hd
      rw [hlen s hd] at hc ⊢
      refine ⟨?_, Or.inr (Or.inr ⟨rfl, r, hr, Or.inl ⟨s, hd, hc.2⟩⟩)⟩
      simp only [slicePtr, if_neg (show ¬ s.len = 0 by omega), copyOut, hcap s hd, Bool.false_or, decide_eq_true_eq, reduceCtorEq, iff_false, List.length_take]
      omega
  | false =>
  simp only [Bool.false_eq_true, false_iff, not_and] at hc
  simp only [Bool.false_eq_true, if_false, List.take_length] at h
  generalize hw1 : copyOut { mem := memOf o ci co, overrun := false, time := t + 1 } (slicePtr .dataOut (outLen o)) r.data = w1 at h
  -- the data
  have hother : ∀ b, b ≠ .dataOut → w1.mem b = memOf o ci co b := by
    intro b hb
    subst hw1
    unfold slicePtr copyOut
    split
    · rfl
    · rename_i b' hb'
      split at hb'
      · simp at hb'
      · simp only [Option.some.injEq] at hb'
        subst hb'
        simp [writeBuf, hb]
  have hdat : (o.dataOut = none ∧ w1.overrun = false) ∨ ∃ s, o.dataOut = some s ∧ (w1.mem .dataOut).length = s.mem.length ∧
      ((w1.overrun = true ∧ s.mem.length < r.data.length) ∨ (w1.overrun = false ∧ r.data.length ≤ s.mem.length ∧ (w1.mem .dataOut).take r.data.length = r.data)) := by
    cases hd : o.dataOut with
    | none =>
      left
      subst hw1
      simp [outLen, hd, slicePtr, copyOut]
    | some s =>
      right
      have ⟨h1, h2, h3⟩ := ho.out s hd
      subst hw1
      simp only [hlen s hd, slicePtr, if_neg (show ¬ s.len = 0 by omega), copyOut, Bool.false_or, decide_eq_true_eq, decide_eq_false_iff_not, hcap s hd]
      refine ⟨s, rfl, by rw [write_length, hcap s hd], ?_⟩
      by_cases hx : s.mem.length < r.data.length
      · exact Or.inl ⟨hx, hx⟩
      · right
        refine ⟨by omega, by omega, ?_⟩
        rw [write_all _ _ _ (by rw [hcap s hd]; omega), List.take_left]
  have hover : w1.overrun = true → k.clamps = false := by
    intro hv
    rcases hdat with ⟨-, h1⟩ | ⟨s, hd, -, ⟨-, h2⟩ | ⟨h1, -⟩⟩
    · simp [hv] at h1
    · have ⟨h3, h4, h5⟩ := ho.out s hd
      rw [hlen s hd] at hc
      cases hcl : k.clamps with
      | false => rfl
      | true => exact absurd (hc ⟨hcl, by omega⟩) (by omega)
    · simp [hv] at h1
  -- the context
  have hnoctx : k.clamps = false → co.getD 0 = 0 := by
    intro hcl
    have := (hacc.1 hcl).2
    have h2 : ¬ (slicePtr .ctxOut (co.getD 0)).isSome = true := this
    rw [fs] at h2
    omega
  by_cases h0 : co.getD 0 = 0
  · have hnil : slicePtr .ctxOut (co.getD 0) = none := by simp [slicePtr, h0]
    simp only [finishCtx, hnil] at h
    cases h
    simp only [outcomeOf, endOf, collect]
    have hctxr : ∃ cr, ctxResult w2 .ctxOut o = .ok cr ∧ (o.contextOut = none → cr = none) ∧
        (∀ c n, o.contextOut = some c → c.size = some n → cr = some ((r.ctx ++ List.replicate n 0).take n) ∧ (0 < n → r.ctx.length ≤ n)) := by
      rcases hcos with ⟨rfl, hc⟩ | ⟨c, n, rfl, hc, hn, hrd, hn2⟩
      · exact ⟨none, by simp [ctxResult, hc], by simp, by simp [hc]⟩
      · simp only [Option.getD_some] at h0
        subst h0
        refine ⟨some [], ?_, by simp [hc], ?_⟩
        · simp only [ctxResult, hc, hrd, if_true]
          rw [hother _ (by decide)]
          simp [memOf]
        · intro c' n' hc' hn'
          rw [hc] at hc'; cases hc'
          rw [hn] at hn'; cases hn'
          simp
    obtain ⟨cr, hcr, hc1, hc2⟩ := hctxr
    rcases hdat with ⟨hd, hov⟩ | ⟨s, hd, hl, ⟨hov, hbig⟩ | ⟨hov, hfit, htake⟩⟩
    · simp only [dataResult, hd, hcr]
      exact ⟨hov, r, hr, rfl, fun _ => rfl, by simp [hd], hc1, hc2⟩
    · simp only [dataResult, hd, hr32, hl, if_pos hbig]
      exact ⟨by simp [hov], hover hov, r, s, hr, hd, hbig⟩
    · simp only [dataResult, hd, hr32, hl, if_neg (Nat.not_lt.mpr hfit), htake, hcr]
      exact ⟨hov, r, hr, rfl, fun _ => rfl, by simp [hd], hc1, hc2⟩
  · have hcl : k.clamps = true := by
      cases hcl : k.clamps with
      | true => rfl
      | false => exact absurd (hnoctx hcl) h0
    have hov : w1.overrun = false := by
      cases hv : w1.overrun with
      | false => rfl
      | true => have := hover hv; simp [hcl] at this
    rcases hcos with ⟨rfl, -⟩ | ⟨c, n, rfl, hc, hn, hrd, hn2⟩
    · simp at h0
    simp only [Option.getD_some] at h0
    have hptr : slicePtr .ctxOut n = some .ctxOut := by simp [slicePtr, h0]
    have hm : w1.mem .ctxOut = List.replicate n 0 := by rw [hother _ (by decide)]; rfl
    simp only [finishCtx, Option.getD_some, hptr, ofNat_toNat n hn2] at h
    by_cases hbig : r.ctx.length > n
    · simp only [if_pos hbig] at h
      cases h
      rw [outcome_error, if_neg (by decide)]
      refine ⟨?_, Or.inr (Or.inr ⟨rfl, r, hr, Or.inr ⟨c, n, hc, hn, hbig⟩⟩)⟩
      simp [copyOut, hov, hm]
      omega
    · simp only [if_neg hbig, List.take_length] at h
      cases h
      have hcm : writeBuf w1.mem .ctxOut r.ctx .ctxOut = (r.ctx ++ List.replicate n 0).take n := by
        rw [write_all _ _ _ (by rw [hm]; simp; omega), hm, take_zeros _ _ (by omega)]
      have hdm : writeBuf w1.mem .ctxOut r.ctx .dataOut = w1.mem .dataOut := by simp [writeBuf]
      simp only [outcomeOf, endOf, collect, copyOut]
      rcases hdat with ⟨hd, -⟩ | ⟨s, hd, hl, ⟨hov', -⟩ | ⟨-, hfit, htake⟩⟩
      · simp only [dataResult, hd, ctxResult, hc, hrd, if_true, hcm]
        refine ⟨by simp [hov, hm]; omega, r, hr, rfl, fun _ => rfl, by simp [hd], by simp [hc], ?_⟩
        intro c' n' hc' hn'
        rw [hc] at hc'; cases hc'
        rw [hn] at hn'; cases hn'
        exact ⟨rfl, fun _ => by omega⟩
      · simp [hov] at hov'
      · simp only [dataResult, hd, hdm, hr32, hl, if_neg (Nat.not_lt.mpr hfit), htake, ctxResult, hc, hrd, if_true, hcm]
        refine ⟨by simp [hov, hm]; omega, r, hr, rfl, fun _ => rfl, by simp [hd], by simp [hc], ?_⟩
        intro c' n' hc' hn'
        rw [hc] at hc'; cases hc'
        rw [hn] at hn'; cases hn'
        exact ⟨rfl, fun _ => by omega⟩

/-! ### Runs -/

/-- **C91, partial.** A run that has ended well was the program's last, with exactly the arguments asked for: return value, duration, all of the data and of the context are the program's. One that has failed has done so for a reason; the kernel has written nowhere it shouldn't
(or, before 4.20, the process panics). It was repeated once for each interruption, after a call of `Reset`. Missing: what isn't `Sane`, and a single run on kernels before 5.14; see the counterexamples below. -/
theorem run_exact_partial (k : Kernel) (hk : k.Ok) (p : Prog) (hp : k.isSyscall p.fd = p.syscall) (probe : Bool) (o : RunOptions) (ho : o.Sane) (hd : k.doneFirst = true ∨ 1 < o.repeats.toNat)
    (time fuel resets : Nat) (over : Bool) (res : Except RunErr Result) (h : run k time p probe o fuel = some (resets, over, res)) :
    Good k (time + resets) p probe o over res ∧ (∀ i < resets, k.signal (time + i) = true) ∧ (k.clamps = true → over = false) := by
  unfold run at h
  split at h
  · rename_i hl
    cases h
    exact ⟨⟨by simp, by show 2 ^ 32 ≤ o.data.length; omega⟩, by simp, by simp⟩
  rename_i hl
  split at h
  · rename_i hpr
    cases h
    exact ⟨⟨by simp, hpr⟩, by simp, by simp⟩
  split at h
  · rename_i e he
    cases h
    have : e = .context ∧ o.context = some none := by
      unfold ctxInOf at he
      split at he <;> simp_all
    obtain ⟨rfl, hc⟩ := this
    exact ⟨⟨by simp, hc⟩, by simp, by simp⟩
  rename_i ci hci
  split at h
  · rename_i e he
    exfalso
    unfold ctxOutOf at he
    split at he
    · simp at he
    · rename_i c hc
      obtain ⟨-, n, hn, -⟩ := ho.ctxOut c hc
      simp [hn] at he
  rename_i co hco
  split at h
  · rename_i e he
    cases h
    unfold shield at he
    split at he
    · rename_i i n hsys
      split at he
      · rename_i hne
        cases he
        refine ⟨⟨by simp, hsys, i, ?_⟩, by simp, by simp⟩
        unfold ctxInOf at hci
        unfold ctxOutOf at hco
        split at hci
        · simp at hci
        · simp at hci
        · rename_i b hb
          split at hco
          · simp at hco
          · rename_i c hc
            split at hco
            · simp at hco
            · rename_i m hm
              cases hci; cases hco
              exact ⟨c, n, hb, hc, hm, hne⟩
      · simp at he
    · simp at he
  rename_i a place hs
  have hrep : a.repeats = o.repeats := by
    rcases shield_cases p _ a ci co place hs with ⟨-, -, rfl, -⟩ | ⟨-, rfl, -⟩ <;> rfl
  have main : ∀ (w2 : World) (r2 : Nat) (le : LoopEnd), loop k fuel { mem := memOf o ci co, time := time } a 0 = some (w2, r2, le) →
      Good k (time + r2) p probe o w2.overrun (match le with | .done a => collect w2 a place o | .failed e => .error e) ∧ (∀ i < r2, k.signal (time + i) = true) := by
    intro w2 r2 le hloop
    obtain ⟨n, a2, e, h1, h2, h3, h4, h5⟩ := loop_ends k hk a (by rw [hrep]; exact hd) fuel _ _ _ _ _ hloop
    simp only [Nat.zero_add] at h1
    subst h1
    have := call_good k hk p hp probe o ho (by omega) ci co hci hco a place hs (time + r2) w2 a2 e h3 h4
    rw [h5]
    exact ⟨this, h2⟩
  have clamp : ∀ (over : Bool) (res : Except RunErr Result) (t : Nat), Good k t p probe o over res → k.clamps = true → over = false := by
    intro over res t hg hc
    rcases res with e | x
    · cases over with
      | false => rfl
      | true =>
        have := hg.1.mp rfl
        subst this
        have := hg.2.1
        simp [hc] at this
    · exact hg.1
  split at h
  · simp at h
  · rename_i w2 r2 e hloop
    simp only [Option.some.injEq, Prod.mk.injEq] at h
    obtain ⟨rfl, rfl, rfl⟩ := h
    have := main _ _ _ hloop
    exact ⟨this.1, this.2, clamp _ _ _ this.1⟩
  · rename_i w2 r2 a2 hloop
    simp only [Option.some.injEq, Prod.mk.injEq] at h
    obtain ⟨rfl, rfl, rfl⟩ := h
    have := main _ _ _ hloop
    exact ⟨this.1, this.2, clamp _ _ _ this.1⟩

/-- **C91.** A run ends at the latest when it isn't interrupted. -/
theorem run_returns (k : Kernel) (hk : k.Ok) (p : Prog) (probe : Bool) (o : RunOptions) (time fuel n : Nat) (hs : k.signal (time + n) = false) (hn : n < fuel) : run k time p probe o fuel ≠ none := by
  unfold run
  repeat' split
  all_goals first
    | simp; done
    | (rename_i h; exact absurd h (loop_returns k hk _ fuel _ _ n hs hn))

/-- **C91.** A run succeeds unless there is a reason not to: the data is too long, the context can't be encoded or has the wrong size, the kernel has no way to run it, doesn't accept the options or fails, or there is no space for the output. -/
theorem run_succeeds (k : Kernel) (hk : k.Ok) (p : Prog) (hp : k.isSyscall p.fd = p.syscall) (o : RunOptions) (ho : o.Sane) (hd : k.doneFirst = true ∨ 1 < o.repeats.toNat)
    (hl : o.data.length < 2 ^ 32) (hc : o.context ≠ some none) (hm : p.syscall = true → ∀ b c n, o.context = some (some b) → o.contextOut = some c → c.size = some n → b.length = n)
    (hr : k.runnable p.fd = true) (ha : ¬ NotAccepted k p o) (hf : ∀ t, ∃ r, k.outcome t (asked p o) = .ok r ∧ ¬ TooBig o r)
    (time fuel resets : Nat) (over : Bool) (res : Except RunErr Result) (h : run k time p false o fuel = some (resets, over, res)) : ∃ x, res = .ok x := by
  obtain ⟨hg, -, -⟩ := run_exact_partial k hk p hp false o ho hd time fuel resets over res h
  obtain ⟨r, hr1, hr2⟩ := hf (time + resets)
  rcases res with e | x
  · exfalso
    have he := hg.2
    cases e with
    | tooLong => have he : 2 ^ 32 ≤ o.data.length := he; omega
    | probe => exact Bool.noConfusion he
    | context => exact hc he
    | mismatch => obtain ⟨h1, b, c, n, h2, h3, h4, h5⟩ := he; exact h5 (hm h1 b c n h2 h3 h4)
    | notSupported =>
      rcases he with he | he
      · simp [hr] at he
      · simp [hr1] at he
    | sys e =>
      rcases he with he | he | ⟨-, r', he, hb⟩
      · exact ha he.2
      · simp [hr1] at he
      · rw [hr1] at he; cases he; exact hr2 hb
    | panicOverrun =>
      obtain ⟨-, r', s, h1, h2, h3⟩ := he
      rw [hr1] at h1; cases h1
      have := ho.out s h2
      exact hr2 (Or.inl ⟨s, h2, by omega⟩)
    | panicSize => exact he
    | decode => exact he
  · exact ⟨x, rfl⟩

theorem test_sane (input : List Byte) (hl : input.length < 2 ^ 32 - 258) : (testOptions input).Sane where
  out := by
    intro s hs
    simp only [testOptions] at hs
    split at hs
    · cases hs
      exact ⟨by simp, by simp, by simp only; omega⟩
    · simp at hs
  ctx := by simp [testOptions]
  ctxOut := by simp [testOptions]

/-- **C91.** `Test(in)` gives what one run of the program on this input gives: its return value and, if there is input, the data after it. -/
theorem test_exact (k : Kernel) (hk : k.Ok) (hd : k.doneFirst = true) (p : Prog) (hp : k.isSyscall p.fd = p.syscall) (probe : Bool) (input : List Byte) (hl : input.length < 2 ^ 32 - 258)
    (time fuel resets : Nat) (over : Bool) (x : Result) (h : test k time p probe input fuel = some (resets, over, .ok x)) :
    over = false ∧ ∃ r, k.outcome (time + resets) ⟨p.fd, input, [], 1, 0, 0, 0⟩ = .ok r ∧ x.ret = r.ret ∧ x.dataOut = if input = [] then none else some r.data := by
  obtain ⟨⟨h1, r, h2, h3⟩, -⟩ := run_exact_partial k hk p hp probe _ (test_sane input hl) (Or.inl hd) time fuel resets over _ h
  refine ⟨h1, r, h2, h3.1, ?_⟩
  rw [h3.2.2.1]
  cases input <;> simp [testOptions]

/-- **C91.** `Benchmark(in, repeat, reset)` runs the program that often, and says how long one run takes. Numbers which aren't of 32 bits are refused. -/
theorem benchmark_exact (k : Kernel) (hk : k.Ok) (p : Prog) (hp : k.isSyscall p.fd = p.syscall) (hns : p.syscall = false) (probe : Bool) (input : List Byte) (n : Int) (hn : -(2 ^ 63) ≤ n ∧ n < 2 ^ 63) (hd : k.doneFirst = true ∨ 1 < n)
    (time fuel resets : Nat) (over : Bool) (res : Except RunErr Result) (h : benchmark k time p probe input n fuel = some (resets, over, res)) :
    (¬ (0 ≤ n ∧ n < 2 ^ 32) → res = .error .tooLong ∧ resets = 0) ∧
    (∀ x, res = .ok x → 0 ≤ n ∧ n < 2 ^ 32 ∧ ∃ r, k.outcome (time + resets) ⟨p.fd, input, [], BitVec.ofNat 32 n.toNat, 0, 0, 0⟩ = .ok r ∧ x.ret = r.ret ∧ x.dur = r.dur) := by
  unfold benchmark at h
  have hto : (BitVec.ofInt 64 n).toNat = if 0 ≤ n then n.toNat else (n + 2 ^ 64).toNat := by
    rw [BitVec.toNat_ofInt]
    split <;> omega
  rw [hto] at h
  by_cases hr : 0 ≤ n ∧ n < 2 ^ 32
  · rw [if_pos hr.1, if_neg (by omega)] at h
    refine ⟨fun hx => (hx hr).elim, fun x hx => ⟨hr.1, hr.2, ?_⟩⟩
    subst hx
    have hrep : BitVec.ofInt 32 n = BitVec.ofNat 32 n.toNat := by
      conv => lhs; rw [← Int.toNat_of_nonneg hr.1]
      rfl
    rw [hrep] at h
    have hsane : RunOptions.Sane { data := input, repeats := BitVec.ofNat 32 n.toNat } := ⟨by simp, by simp, by simp⟩
    obtain ⟨⟨h1, r, h2, h3⟩, -⟩ := run_exact_partial k hk p hp probe _ hsane (by rcases hd with hd | hd; exact Or.inl hd; right; simp only [BitVec.toNat_ofNat]; omega) time fuel resets over _ h
    exact ⟨r, h2, h3.1, h3.2.1 hns⟩
  · rw [if_pos (by split <;> omega)] at h
    cases h
    exact ⟨fun _ => ⟨rfl, rfl⟩, fun x hx => by simp at hx⟩

/-! ### Counterexamples -/

/-- **On kernels before 5.14, a signal makes `Test` lie:** whatever the program returns and puts out, `Test` reports success, the return value 0 and 258 more zeros than there was input. -/
theorem interrupted_lies (k : Kernel) (hd : k.doneFirst = false) (p : Prog) (hs : k.isSyscall p.fd = false) (hr : k.runnable p.fd = true) (input : List Byte) (h0 : input ≠ []) (hl : input.length < 2 ^ 32 - 258)
    (time fuel : Nat) (r : Res) (ho : k.outcome time ⟨p.fd, input, [], 1, 0, 0, 0⟩ = .ok r) (hsig : k.signal time = true) (hp : p.syscall = false) :
    test k time p false input (fuel + 1) = some (0, false, .ok ⟨0, 0, some (List.replicate (input.length + 258) 0), none⟩) := by
  have hpos : 0 < input.length := List.length_pos_iff.mpr h0
  have hrd : readBuf (memOf (testOptions input) none none) (slicePtr .dataIn input.length) (BitVec.ofNat 32 input.length).toNat = some input := read_slice _ _ _ (by omega) rfl
  have hol : outLen (testOptions input) = input.length + 258 := by simp [outLen, testOptions, hpos]
  have hmem : memOf (testOptions input) none none .dataOut = List.replicate (input.length + 258) 0 := by simp [memOf, testOptions, hpos]
  have ht : testRun k { mem := memOf (testOptions input) none none, time := time } (attrOf p (testOptions input) none none) =
      ({ mem := memOf (testOptions input) none none, time := time + 1 }, attrOf p (testOptions input) none none, some EINTR) := by
    unfold testRun
    have e1 : (attrOf p (testOptions input) none none).progFd = p.fd := rfl
    have e2 : (attrOf p (testOptions input) none none).dataIn = slicePtr .dataIn input.length := rfl
    have e3 : (attrOf p (testOptions input) none none).dataSizeIn = BitVec.ofNat 32 input.length := rfl
    have e4 : readBuf (memOf (testOptions input) none none) (attrOf p (testOptions input) none none).ctxIn (attrOf p (testOptions input) none none).ctxSizeIn.toNat = some [] := rfl
    have e5 : refused k (attrOf p (testOptions input) none none) = false := by
      have : (attrOf p (testOptions input) none none).ctxIn = none := rfl
      have h2 : (attrOf p (testOptions input) none none).ctxOut = none := rfl
      simp [refused, e1, hs, this, h2]
    have e6 : reqOf (attrOf p (testOptions input) none none) input [] = ⟨p.fd, input, [], 1, 0, 0, 0⟩ := rfl
    simp only [e1, e2, e3, e4, e5, e6, hrd, ho, hr, hs, hsig, hd]
    simp
  have hloop : loop k (fuel + 1) { mem := memOf (testOptions input) none none, time := time } (attrOf p (testOptions input) none none) 0 =
      some ({ mem := memOf (testOptions input) none none, time := time + 1 }, 0, .done (attrOf p (testOptions input) none none)) := by
    have hrep : (attrOf p (testOptions input) none none).repeats.toNat ≤ 1 := Nat.le_refl 1
    simp only [loop, ht, if_true]
    rw [if_pos hrep]
  have hd0 : (testOptions input).data.length = input.length := rfl
  have hci : ctxInOf (testOptions input) = .ok none := rfl
  have hco : ctxOutOf (testOptions input) = .ok none := rfl
  have hsh : shield p (attrOf p (testOptions input) none none) none none = .ok (attrOf p (testOptions input) none none, .ctxOut) := by simp [shield, hp]
  unfold test run
  simp only [hd0, if_neg (show ¬ input.length > 2 ^ 32 - 1 by omega), hci, hco, hsh, hloop, Bool.false_eq_true, if_false]
  have hdo : ∃ s, (testOptions input).dataOut = some s := by simp [testOptions, hpos]
  obtain ⟨s, hs2⟩ := hdo
  have hsz : (attrOf p (testOptions input) none none).dataSizeOut.toNat = input.length + 258 := by
    show (BitVec.ofNat 32 (outLen (testOptions input))).toNat = _
    rw [hol]; exact ofNat_toNat _ (by omega)
  have hcr : ∀ w, ctxResult w .ctxOut (testOptions input) = .ok none := fun _ => rfl
  simp only [collect, dataResult, hs2, hmem, hsz, List.length_replicate, hcr]
  simp [attrOf]

/-- **An empty `DataOut` which isn't nil makes `Run` panic** if the program has output, saying that the kernel wrote past its end although it has written nothing. -/
theorem empty_out_panics (k : Kernel) (p : Prog) (hs : k.isSyscall p.fd = false) (hr : k.runnable p.fd = true) (input : List Byte) (hl : input.length < 2 ^ 32)
    (time fuel : Nat) (r : Res) (ho : k.outcome time ⟨p.fd, input, [], 1, 0, 0, 0⟩ = .ok r) (hsig : k.signal time = false) (hp : p.syscall = false) (hd : 0 < r.data.length ∧ r.data.length < 2 ^ 32) :
    run k time p false { data := input, dataOut := some ⟨[], 0⟩, repeats := 1 } (fuel + 1) = some (0, false, .error .panicOverrun) := by
  generalize hoo : ({ data := input, dataOut := some ⟨[], 0⟩, repeats := 1 } : RunOptions) = o
  have q1 : o.data = input := by rw [← hoo]
  have q2 : o.dataOut = some ⟨[], 0⟩ := by rw [← hoo]
  have q3 : o.repeats = 1 ∧ o.flags = 0 ∧ o.cpu = 0 ∧ o.batch = 0 := by rw [← hoo]; exact ⟨rfl, rfl, rfl, rfl⟩
  have hci : ctxInOf o = .ok none := by rw [← hoo]; rfl
  have hco : ctxOutOf o = .ok none := by rw [← hoo]; rfl
  have hol : outLen o = 0 := by simp [outLen, q2]
  have hrd : readBuf (memOf o none none) (slicePtr .dataIn input.length) (BitVec.ofNat 32 input.length).toNat = some input := read_slice _ _ _ hl (by simp [memOf, q1])
  have ht : testRun k { mem := memOf o none none, time := time } (attrOf p o none none) =
      ({ mem := memOf o none none, time := time + 1 }, { attrOf p o none none with dataSizeOut := BitVec.ofNat 32 r.data.length, retval := r.ret, duration := r.dur }, none) := by
    unfold testRun
    have e1 : (attrOf p o none none).progFd = p.fd := rfl
    have e2 : (attrOf p o none none).dataIn = slicePtr .dataIn input.length := by simp [attrOf, q1]
    have e3 : (attrOf p o none none).dataSizeIn = BitVec.ofNat 32 input.length := by simp [attrOf, q1]
    have e4 : readBuf (memOf o none none) (attrOf p o none none).ctxIn (attrOf p o none none).ctxSizeIn.toNat = some [] := rfl
    have e5 : refused k (attrOf p o none none) = false := by
      have : (attrOf p o none none).ctxIn = none := rfl
      have h2 : (attrOf p o none none).ctxOut = none := rfl
      simp [refused, e1, hs, this, h2]
    have e6 : reqOf (attrOf p o none none) input [] = ⟨p.fd, input, [], 1, 0, 0, 0⟩ := by simp [reqOf, attrOf, q3]
    have e7 : (attrOf p o none none).dataOut = none := by simp [attrOf, hol, slicePtr]
    have e8 : (attrOf p o none none).dataSizeOut = 0 := by simp [attrOf, hol]
    have e9 : (attrOf p o none none).ctxOut = none := rfl
    simp only [e1, e2, e3, e4, e5, e6, hrd, ho, hr, hs, hsig]
    simp [finish, finishCtx, e7, e8, e9, copyOut]
    exact ⟨e1, e3, e2⟩
  have hsh : shield p (attrOf p o none none) none none = .ok (attrOf p o none none, .ctxOut) := by simp [shield, hp]
  unfold run
  simp only [q1, if_neg (show ¬ input.length > 2 ^ 32 - 1 by omega), hci, hco, hsh, loop, ht, Bool.false_eq_true, if_false]
  simp only [collect, dataResult, q2, ofNat_toNat _ hd.2]
  rw [if_pos (by simpa [memOf, q2] using hd.1)]

/-- **A `ContextOut` without a fixed size makes `Run` panic,** not return an error. -/
theorem sizeless_panics (k : Kernel) (p : Prog) (o : RunOptions) (hl : o.data.length < 2 ^ 32) (hc : o.context ≠ some none) (b : Bool) (h : o.contextOut = some ⟨none, b⟩) (time fuel : Nat) :
    run k time p false o fuel = some (0, false, .error .panicSize) := by
  have hci : ∃ ci, ctxInOf o = .ok ci := by
    unfold ctxInOf
    split <;> simp_all
  obtain ⟨ci, hci⟩ := hci
  have hco : ctxOutOf o = .error .panicSize := by simp [ctxOutOf, h]
  unfold run
  simp only [if_neg (show ¬ o.data.length > 2 ^ 32 - 1 by omega), hci, hco, Bool.false_eq_true, if_false]

/-! ### An example -/

/-- A kernel which cuts four bytes off a packet and returns 2, interrupted twice. -/
def demoKernel : Kernel where
  clamps := true
  doneFirst := true
  runnable := fun _ => true
  isSyscall := fun _ => false
  outcome := fun _ q => .ok ⟨2, 100, q.data.drop 4, [1, 2]⟩
  signal := fun t => t < 2

example : run demoKernel 0 ⟨7, false⟩ false { data := [1, 2, 3, 4, 5, 6], dataOut := some ⟨[9, 9, 9, 9, 9, 9], 5⟩, contextOut := some ⟨some 3, true⟩, repeats := 10 } 5 =
    some (2, false, .ok ⟨2, 100, some [5, 6], some [1, 2, 0]⟩) := by decide +kernel

example : RunOptions.Sane { data := [1, 2, 3, 4, 5, 6], dataOut := some ⟨[9, 9, 9, 9, 9, 9], 5⟩, contextOut := some ⟨some 3, true⟩, repeats := 10 } where
  out := by intro s h; cases h; decide
  ctx := by simp
  ctxOut := by intro c h; cases h; exact ⟨rfl, 3, rfl, by decide⟩

/-- A program which leaves the packet as it is: the kernel is as required. -/
example : ({ demoKernel with outcome := fun _ q => if q.data.length < 2 ^ 32 then .ok ⟨2, 100, q.data, q.ctx⟩ else .error EINVAL } : Kernel).Ok where
  notIntr := by intro t q h; simp only at h; split at h <;> simp [EINTR, EINVAL] at h
  small := by
    intro t q r h
    simp only at h
    split at h
    · cases h; assumption
    · simp at h
  sameCtx := by intro t q r h; simp [demoKernel] at h

end Ebpf.ProgRun
