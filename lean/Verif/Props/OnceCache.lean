import Verif.Spec.OnceCache
import Verif.Props.KernelInfo
/-! # C114: tables shared by goroutines -/
namespace Ebpf.OnceCache
open Ebpf.KernelInfo Ebpf.Spec.OnceCache

/-! ## Numbers in files -/

theorem isDigit_iff (c : Byte) : isDigit c = true ↔ 0x30 ≤ c.toNat ∧ c.toNat ≤ 0x39 := by
  simp [isDigit]

theorem isBlank_iff (c : Byte) : isBlank c = true ↔ (c.toNat = 0x20 ∨ c.toNat = 0x09 ∨ c.toNat = 0x0b ∨ c.toNat = 0x0c ∨ c.toNat = 0x0d) := by
  have e : ∀ n : Nat, n < 256 → (c = BitVec.ofNat 8 n ↔ c.toNat = n) := by
    intro n hn
    rw [← BitVec.toNat_inj, BitVec.toNat_ofNat]
    omega
  have h1 := e 0x20 (by omega)
  have h2 := e 0x09 (by omega)
  have h3 := e 0x0b (by omega)
  have h4 := e 0x0c (by omega)
  have h5 := e 0x0d (by omega)
  simp only [isBlank, Bool.or_eq_true, decide_eq_true_eq]
  rw [← h1, ← h2, ← h3, ← h4, ← h5]
  constructor
  · rintro ((((h | h) | h) | h) | h) <;> simp [h]
  · rintro (h | h | h | h | h) <;> simp [h]

theorem digits_iff (ds : Bytes) (n : Nat) : Digits ds n ↔ ds ≠ [] ∧ (∀ c ∈ ds, isDigit c = true) ∧ value ds = n := by
  constructor
  · intro h
    induction h with
    | one c h1 h2 => exact ⟨by simp, by simp [isDigit_iff, h1, h2], by simp [value]⟩
    | snoc b n c _ h1 h2 ih =>
      refine ⟨by simp, ?_, ?_⟩
      · intro x hx
        rcases List.mem_append.mp hx with hx | hx
        · exact ih.2.1 x hx
        · rw [List.mem_singleton.mp hx]; exact (isDigit_iff c).mpr ⟨h1, h2⟩
      · rw [value_snoc, ih.2.2]; omega
  · rintro ⟨h1, h2, h3⟩
    subst h3
    suffices h : ∀ (m : Nat) (ds : Bytes), ds.length = m + 1 → (∀ c ∈ ds, isDigit c = true) → Digits ds (value ds) by
      refine h (ds.length - 1) ds ?_ h2
      have := List.length_pos_iff.mpr h1
      omega
    intro m
    induction m with
    | zero =>
      intro ds hl hd
      match ds, hl with
      | [c], _ =>
        have := (isDigit_iff c).mp (hd c (by simp))
        have hv : value [c] = c.toNat - 0x30 := by simp [value]
        rw [hv]
        exact .one c this.1 this.2
    | succ m ih =>
      intro ds hl hd
      rcases List.eq_nil_or_concat ds with rfl | ⟨b, c, rfl⟩
      · simp at hl
      · rw [List.concat_eq_append] at *
        have := (isDigit_iff c).mp (hd c (by simp))
        rw [value_snoc, Nat.mul_comm]
        exact .snoc b _ c (ih b (by simpa using hl) (fun x hx => hd x (by simp [hx]))) this.1 this.2

theorem literals_iff (text data r : Bytes) : literals text data = some r ↔ data = text ++ r := by
  induction text generalizing data with
  | nil => simp [literals]
  | cons l ls ih =>
    unfold literals
    cases data with
    | nil => simp [literal]
    | cons c d =>
      have e : literal l (c :: d) = if c = l then some d else none := rfl
      rw [e]
      by_cases h : c = l
      · rw [if_pos h]
        dsimp only
        rw [ih]
        subst h
        simp
      · rw [if_neg h]
        simp [h]

theorem skip_blanks (b r : Bytes) (hb : Blanks b) : skipSpace (b ++ r) = skipSpace r := by
  induction b with
  | nil => rfl
  | cons c b ih =>
    have : isBlank c = true := (isBlank_iff c).mpr (hb c (by simp))
    show (if isBlank c then skipSpace (b ++ r) else _) = _
    rw [if_pos this, ih (fun x hx => hb x (by simp [hx]))]

theorem skip_some (b r : Bytes) (h : skipSpace b = some r) : ∃ b1, b = b1 ++ r ∧ Blanks b1 := by
  induction b with
  | nil => cases h; exact ⟨[], rfl, by simp [Blanks]⟩
  | cons c b ih =>
    have e : skipSpace (c :: b) = if isBlank c then skipSpace b else if c = 0x0a then none else some (c :: b) := rfl
    rw [e] at h
    by_cases hc : isBlank c = true
    · rw [if_pos hc] at h
      obtain ⟨b1, rfl, hb⟩ := ih h
      refine ⟨c :: b1, rfl, ?_⟩
      intro x hx
      rcases List.mem_cons.mp hx with rfl | hx
      · exact (isBlank_iff x).mp hc
      · exact hb x hx
    · rw [if_neg hc] at h
      by_cases hn : c = 0x0a
      · rw [if_pos hn] at h; cases h
      · rw [if_neg hn] at h; cases h; exact ⟨[], rfl, by simp [Blanks]⟩

theorem newline_iff (b : Bytes) : newlineOrEnd b = true ↔ ∃ b2 tail, b = b2 ++ tail ∧ Blanks b2 ∧ (tail = [] ∨ ∃ r, tail = 0x0a :: r) := by
  induction b with
  | nil => simp only [newlineOrEnd, true_iff]; exact ⟨[], [], rfl, by simp [Blanks], .inl rfl⟩
  | cons c b ih =>
    have e : newlineOrEnd (c :: b) = if isBlank c then newlineOrEnd b else decide (c = 0x0a) := rfl
    rw [e]
    by_cases hc : isBlank c = true
    · rw [if_pos hc, ih]
      constructor
      · rintro ⟨b2, tail, rfl, hb, ht⟩
        refine ⟨c :: b2, tail, rfl, ?_, ht⟩
        intro x hx
        rcases List.mem_cons.mp hx with rfl | hx
        · exact (isBlank_iff x).mp hc
        · exact hb x hx
      · rintro ⟨b2, tail, hb, h2, ht⟩
        cases b2 with
        | nil =>
          rcases ht with rfl | ⟨r, rfl⟩
          · cases hb
          · cases hb; exact absurd hc (by decide)
        | cons x b2 =>
          cases hb
          exact ⟨b2, tail, rfl, fun y hy => h2 y (by simp [hy]), ht⟩
    · rw [if_neg hc, decide_eq_true_eq]
      constructor
      · rintro rfl
        exact ⟨[], 0x0a :: b, rfl, by simp [Blanks], .inr ⟨b, rfl⟩⟩
      · rintro ⟨b2, tail, hb, h2, ht⟩
        cases b2 with
        | nil =>
          rcases ht with rfl | ⟨r, rfl⟩
          · cases hb
          · cases hb; rfl
        | cons x b2 => cases hb; exact absurd ((isBlank_iff c).mpr (h2 c (by simp))) hc

theorem takeWhile_digits (ds r : Bytes) (hd : ∀ c ∈ ds, isDigit c = true) (hr : NoDigit r) :
    (ds ++ r).takeWhile isDigit = ds ∧ (ds ++ r).dropWhile isDigit = r := by
  induction ds with
  | nil =>
    cases r with
    | nil => exact ⟨rfl, rfl⟩
    | cons c r =>
      have : isDigit c = false := hr c r rfl
      simp [this]
  | cons c ds ih =>
    have := ih (fun x hx => hd x (by simp [hx]))
    have hc := hd c (by simp)
    simp [hc, this.1, this.2]

theorem digit_head (c : Byte) (h : isDigit c = true) : isBlank c = false ∧ c ≠ 0x0a := by
  have := digit_not c h
  exact ⟨this.1, this.2.1⟩

theorem noDigit_after (b2 tail : Bytes) (hb : Blanks b2) (ht : tail = [] ∨ ∃ r, tail = 0x0a :: r) : NoDigit (b2 ++ tail) := by
  intro c t h
  cases b2 with
  | nil =>
    rcases ht with rfl | ⟨r, rfl⟩
    · cases h
    · cases h; decide
  | cons x b2 =>
    cases h
    have := (isBlank_iff c).mpr (hb c (by simp))
    cases hd : isDigit c with
    | false => rfl
    | true => rw [(digit_head c hd).1] at this; cases this

/-- A file which shows the number is read, exactly if the number fits. -/
theorem parse_shows (text data : Bytes) (n : Nat) (h : Shows text data n) :
    parseUint64 text data = if n < 2 ^ 64 then some (BitVec.ofNat 64 n) else none := by
  obtain ⟨b1, ds, b2, tail, rfl, hb1, hd, hb2, ht⟩ := h
  obtain ⟨hne, hdig, hv⟩ := (digits_iff ds n).mp hd
  have hl : literals text (text ++ b1 ++ ds ++ b2 ++ tail) = some (b1 ++ (ds ++ (b2 ++ tail))) := by
    rw [literals_iff]; simp [List.append_assoc]
  have hs : skipSpace (b1 ++ (ds ++ (b2 ++ tail))) = some (ds ++ (b2 ++ tail)) := by
    rw [skip_blanks _ _ hb1]
    cases ds with
    | nil => exact absurd rfl hne
    | cons c ds =>
      have := digit_head c (hdig c (by simp))
      show (if isBlank c then skipSpace _ else if c = 0x0a then none else some (c :: (ds ++ (b2 ++ tail)))) = _
      rw [if_neg (by simp [this.1]), if_neg this.2]
      rfl
  have htw := takeWhile_digits ds (b2 ++ tail) hdig (noDigit_after b2 tail hb2 ht)
  have hsd : scanDigits (ds ++ (b2 ++ tail)) = some (n, b2 ++ tail) := by
    simp only [scanDigits, htw.1, htw.2]
    rw [if_neg hne, hv]
  have hn : newlineOrEnd (b2 ++ tail) = true := (newline_iff _).mpr ⟨b2, tail, rfl, hb2, ht⟩
  simp only [parseUint64, hl, scanUint64, hs, hsd]
  by_cases hlt : n < 2 ^ 64
  · simp only [if_pos hlt, hn, if_true]
  · simp only [if_neg hlt]

/-- What is read is a number which the file shows. -/
theorem parse_some (text data : Bytes) (v : BitVec 64) (h : parseUint64 text data = some v) : Shows text data v.toNat := by
  unfold parseUint64 at h
  cases hl : literals text data with
  | none => rw [hl] at h; cases h
  | some r =>
    rw [hl] at h
    have hd := (literals_iff _ _ _).mp hl
    dsimp only at h
    unfold scanUint64 at h
    cases hs : skipSpace r with
    | none => rw [hs] at h; cases h
    | some r1 =>
      rw [hs] at h
      obtain ⟨b1, rfl, hb1⟩ := skip_some r r1 hs
      dsimp only at h
      cases hsd : scanDigits r1 with
      | none => rw [hsd] at h; cases h
      | some p =>
        obtain ⟨n, r2⟩ := p
        rw [hsd] at h
        dsimp only at h
        by_cases hlt : n < 2 ^ 64
        · rw [if_pos hlt] at h
          dsimp only at h
          by_cases hn : newlineOrEnd r2 = true
          · rw [if_pos hn] at h
            cases h
            obtain ⟨b2, tail, hbt, hb2, ht⟩ := (newline_iff r2).mp hn
            unfold scanDigits at hsd
            dsimp only at hsd
            by_cases he : r1.takeWhile isDigit = []
            · rw [if_pos he] at hsd; cases hsd
            · rw [if_neg he] at hsd
              cases hsd
              refine ⟨b1, r1.takeWhile isDigit, b2, tail, ?_, hb1, ?_, hb2, ht⟩
              · rw [hd]
                have := List.takeWhile_append_dropWhile (p := isDigit) (l := r1)
                rw [List.append_assoc _ b2, ← hbt, List.append_assoc _ (r1.takeWhile isDigit), this, ← List.append_assoc]
              · rw [digits_iff]
                refine ⟨he, ?_, ?_⟩
                · intro c hc
                  exact (List.all_eq_true.mp (List.all_takeWhile (p := isDigit) (l := r1))) c hc
                · rw [BitVec.toNat_ofNat, Nat.mod_eq_of_lt hlt]
          · rw [if_neg hn] at h; cases h
        · rw [if_neg hlt] at h; cases h

/-- **C114.** Reading a number gives the number which the file shows, or an error: if the file can't be read, if it shows no number, or if the number doesn't fit. -/
theorem read_exact (k : Key) (file : Except Nat Bytes) (r : Ret) : readUint64 k.1 file = r ↔ Gives k file r := by
  constructor
  · rintro rfl
    cases file with
    | error e => exact .unreadable e
    | ok data =>
      unfold readUint64
      dsimp only
      cases hp : parseUint64 k.1 data with
      | some v => exact .number data v (parse_some _ _ _ hp)
      | none =>
        refine .other data fun n hn => ?_
        have := parse_shows _ _ _ hn
        rw [hp] at this
        by_cases h : n < 2 ^ 64
        · rw [if_pos h] at this; cases this
        · omega
  · rintro (⟨e⟩ | ⟨data, v, h⟩ | ⟨data, h⟩)
    · rfl
    · have := parse_shows _ _ _ h
      rw [if_pos v.isLt] at this
      simp only [readUint64, this, BitVec.ofNat_toNat, BitVec.setWidth_eq]
    · cases hp : parseUint64 k.1 data with
      | none => simp only [readUint64, hp]
      | some v =>
        have := h _ (parse_some _ _ _ hp)
        have := v.isLt
        omega

/-! ## ReadUint64FromFileOnce by any number of goroutines -/

theorem setPC_self {α : Type} (pc : Nat → α) (t : Nat) (p : α) : setPC pc t p t = p := by simp [setPC]
theorem setPC_ne {α : Type} (pc : Nat → α) (t u : Nat) (p : α) (h : u ≠ t) : setPC pc t p u = pc u := by simp [setPC, h]

/-- What is true of goroutine `t` at program counter `p`. -/
def TOk (cache : Key → Option (BitVec 64)) (log : List Ev) (t : Nat) (p : PC) : Prop :=
  match p with
  | .idle => True
  | .entered k | .rlocked k => callKey t log = some k
  | .peeked k (some v) => callKey t log = some k ∧ cache k = some v
  | .peeked k none | .missed k => callKey t log = some k ∧ knownAtCall t log = none
  | .got k v | .wlocked k v => callKey t log = some k ∧ ∃ f, .read t k f ∈ log ∧ readUint64 k.1 f = .ok v
  | .storing k v => callKey t log = some k ∧ cache k = none ∧ ∃ f, .read t k f ∈ log ∧ readUint64 k.1 f = .ok v
  | .leaving k v | .returning k (.ok v) => callKey t log = some k ∧ cache k = some v
  | .returning k (.error e) =>
    callKey t log = some k ∧ knownAtCall t log = none ∧ ∃ f, ownRead t log = some f ∧ readUint64 k.1 f = .error e

/-- The property of the log: files are read only by calls which had no answer, and every call returns the answer there was, or what was read. -/
def LogOk : List Ev → Prop
  | [] => True
  | .call _ _ :: l => LogOk l
  | .read t k _ :: l => callKey t l = some k ∧ knownAtCall t l = none ∧ LogOk l
  | .ret t k (.ok v) :: l =>
    callKey t l = some k ∧ (∀ w, knownAtCall t l = some w → v = w) ∧ (∀ w, answered k l = some w → v = w) ∧
      (∃ u f, .read u k f ∈ l ∧ readUint64 k.1 f = .ok v) ∧ LogOk l
  | .ret t k (.error e) :: l =>
    callKey t l = some k ∧ knownAtCall t l = none ∧ (∃ f, ownRead t l = some f ∧ readUint64 k.1 f = .error e) ∧ LogOk l

/-- What is true of every reachable state. -/
structure Inv (s : State) : Prop where
  excl : ∀ t u, (s.pc t).writer = true → u ≠ t → (s.pc u).writer = false ∧ (s.pc u).reader = false
  src : ∀ k v, s.cache k = some v → ∃ u f, .read u k f ∈ s.log ∧ readUint64 k.1 f = .ok v
  ans : ∀ k v, answered k s.log = some v → s.cache k = some v
  rets : ∀ t k v, .ret t k (.ok v) ∈ s.log → s.cache k = some v
  known : ∀ t k v, callKey t s.log = some k → knownAtCall t s.log = some v → s.cache k = some v
  thr : ∀ t, TOk s.cache s.log t (s.pc t)
  ok : LogOk s.log

/-- The goroutine of an event. -/
def evThread : Ev → Nat
  | .call t _ | .read t _ _ | .ret t _ _ => t

/-- An event of another goroutine changes nothing for `u`. -/
theorem TOk_event (cache : Key → Option (BitVec 64)) (log : List Ev) (u : Nat) (p : PC) (e : Ev) (he : evThread e ≠ u) (h : TOk cache log u p) :
    TOk cache (e :: log) u p := by
  have h1 : callKey u (e :: log) = callKey u log := by
    cases e with
    | call t k => rw [callKey, if_neg (show ¬ t = u from he)]
    | _ => rfl
  have h2 : knownAtCall u (e :: log) = knownAtCall u log := by
    cases e with
    | call t k => rw [knownAtCall, if_neg (show ¬ t = u from he)]
    | _ => rfl
  have h3 : ownRead u (e :: log) = ownRead u log := by
    cases e with
    | call t k => rw [ownRead, if_neg (show ¬ t = u from he)]
    | read t k f => rw [ownRead, if_neg (show ¬ t = u from he)]
    | _ => rfl
  have hm : ∀ x, x ∈ log → x ∈ e :: log := fun x hx => List.mem_cons_of_mem _ hx
  match p with
  | .idle => trivial
  | .entered k => simpa only [TOk, h1] using h
  | .rlocked k => simpa only [TOk, h1] using h
  | .peeked k (some v) => simpa only [TOk, h1] using h
  | .peeked k none => simpa only [TOk, h1, h2] using h
  | .missed k => simpa only [TOk, h1, h2] using h
  | .got k v => obtain ⟨a, f, b, c⟩ := h; exact ⟨h1.trans a, f, hm _ b, c⟩
  | .wlocked k v => obtain ⟨a, f, b, c⟩ := h; exact ⟨h1.trans a, f, hm _ b, c⟩
  | .storing k v => obtain ⟨a, n, f, b, c⟩ := h; exact ⟨h1.trans a, n, f, hm _ b, c⟩
  | .leaving k v => simpa only [TOk, h1] using h
  | .returning k (.ok v) => simpa only [TOk, h1] using h
  | .returning k (.error e) => simpa only [TOk, h1, h2, h3] using h

/-- Storing a value nobody had stored changes nothing for those who don't write. -/
theorem TOk_store (cache : Key → Option (BitVec 64)) (log : List Ev) (u : Nat) (p : PC) (k : Key) (v : BitVec 64) (hk : cache k = none)
    (hp : p.writer = false) (h : TOk cache log u p) : TOk (store cache k v) log u p := by
  have hs : ∀ j w, cache j = some w → store cache k v j = some w := by
    intro j w hj
    have : j ≠ k := fun e => by rw [e, hk] at hj; cases hj
    simp [store, this, hj]
  match p with
  | .idle => trivial
  | .entered _ => exact h
  | .rlocked _ => exact h
  | .peeked _ (some _) => exact ⟨h.1, hs _ _ h.2⟩
  | .peeked _ none => exact h
  | .missed _ => exact h
  | .got _ _ => exact h
  | .wlocked _ _ => cases hp
  | .storing _ _ => cases hp
  | .leaving _ _ => cases hp
  | .returning _ (.ok _) => exact ⟨h.1, hs _ _ h.2⟩
  | .returning _ (.error _) => exact h

/-- A step which changes only the program counter of `t`. -/
theorem inv_pc (s : State) (t : Nat) (p : PC) (h : Inv s) (hp : TOk s.cache s.log t p)
    (hw : p.writer = true → (s.pc t).writer = true ∨ ∀ u, (s.pc u).writer = false ∧ (s.pc u).reader = false)
    (hr : p.reader = true → (s.pc t).reader = true ∨ ∀ u, (s.pc u).writer = false) : Inv { s with pc := setPC s.pc t p } := by
  refine ⟨?_, h.src, h.ans, h.rets, h.known, ?_, h.ok⟩
  · intro a b ha hab
    dsimp only at *
    by_cases hat : a = t
    · subst hat
      rw [setPC_self] at ha
      rw [setPC_ne _ _ _ _ hab]
      rcases hw ha with h1 | h1
      · exact h.excl a b h1 hab
      · exact h1 b
    · rw [setPC_ne _ _ _ _ hat] at ha
      by_cases hbt : b = t
      · subst hbt
        rw [setPC_self]
        have hx := h.excl a b ha hab
        refine ⟨?_, ?_⟩
        · cases hpw : p.writer with
          | false => rfl
          | true =>
            rcases hw hpw with h1 | h1
            · rw [hx.1] at h1; cases h1
            · rw [(h1 a).1] at ha; cases ha
        · cases hpr : p.reader with
          | false => rfl
          | true =>
            rcases hr hpr with h1 | h1
            · rw [hx.2] at h1; cases h1
            · rw [h1 a] at ha; cases ha
      · rw [setPC_ne _ _ _ _ hbt]
        exact h.excl a b ha hab
  · intro u
    dsimp only
    by_cases hu : u = t
    · subst hu; rw [setPC_self]; exact hp
    · rw [setPC_ne _ _ _ _ hu]; exact h.thr u

/-- The event of a step of `t` which leaves the table as it is. -/
theorem inv_event (s : State) (t : Nat) (p : PC) (e : Ev) (h : Inv s) (he : evThread e = t) (hp : TOk s.cache (e :: s.log) t p)
    (hw : p.writer = false) (hr : p.reader = false)
    (ha : ∀ k v, answered k (e :: s.log) = some v → s.cache k = some v)
    (hrets : ∀ u k v, e = .ret u k (.ok v) → s.cache k = some v)
    (hk : ∀ u k v, callKey u (e :: s.log) = some k → knownAtCall u (e :: s.log) = some v → s.cache k = some v)
    (hl : LogOk (e :: s.log)) : Inv { s with pc := setPC s.pc t p, log := e :: s.log } := by
  have hq : Inv { s with pc := setPC s.pc t .idle } :=
    inv_pc s t .idle h trivial (fun h => by cases h) (fun h => by cases h)
  refine ⟨?_, ?_, ha, ?_, hk, ?_, hl⟩
  · intro a b hab hne
    dsimp only at *
    by_cases hat : a = t
    · subst hat; rw [setPC_self, hw] at hab; cases hab
    · rw [setPC_ne _ _ _ _ hat] at hab
      by_cases hbt : b = t
      · subst hbt; rw [setPC_self]; exact ⟨hw, hr⟩
      · rw [setPC_ne _ _ _ _ hbt]; exact h.excl a b hab hne
  · intro k v hkv
    obtain ⟨u, f, h1, h2⟩ := h.src k v hkv
    exact ⟨u, f, List.mem_cons_of_mem _ h1, h2⟩
  · intro u k v hm
    rcases List.mem_cons.mp hm with hm | hm
    · exact hrets u k v hm.symm
    · exact h.rets u k v hm
  · intro u
    dsimp only
    by_cases hu : u = t
    · subst hu; rw [setPC_self]; exact hp
    · rw [setPC_ne _ _ _ _ hu]
      exact TOk_event _ _ _ _ _ (by rw [he]; exact fun x => hu x.symm) (h.thr u)

theorem thr_at {s : State} (h : Inv s) {t : Nat} {p : PC} (hp : s.pc t = p) : TOk s.cache s.log t p := hp ▸ h.thr t

theorem inv_step (s s' : State) (h : Inv s) (hs : Step s s') : Inv s' := by
  cases hs with
  | call t k ht =>
    refine inv_event s t _ (.call t k) h rfl ?_ rfl rfl h.ans (fun _ _ _ e => by cases e) ?_ h.ok
    · show callKey t (.call t k :: s.log) = some k
      rw [callKey, if_pos rfl]
    · intro u j v h1 h2
      by_cases hu : t = u
      · rw [callKey, if_pos hu] at h1
        rw [knownAtCall, if_pos hu] at h2
        cases h1
        exact h.ans _ _ h2
      · rw [callKey, if_neg hu] at h1
        rw [knownAtCall, if_neg hu] at h2
        exact h.known u j v h1 h2
  | rlock t k ht hw =>
    exact inv_pc s t _ h (show TOk s.cache s.log t (.entered k) from thr_at h ht) (fun h => by cases h) (fun _ => .inr hw)
  | peek t k ht =>
    refine inv_pc s t _ h ?_ (fun h => by cases h) (fun _ => .inl (by rw [ht]; rfl))
    have hk : callKey t s.log = some k := thr_at h ht
    cases hc : s.cache k with
    | some v => exact ⟨hk, hc⟩
    | none =>
      refine ⟨hk, ?_⟩
      cases hn : knownAtCall t s.log with
      | none => rfl
      | some v => have := h.known t k v hk hn; rw [hc] at this; cases this
  | hit t k v ht => exact inv_pc s t _ h (show TOk s.cache s.log t (.peeked k (some v)) from thr_at h ht) (fun h => by cases h) (fun h => by cases h)
  | miss t k ht => exact inv_pc s t _ h (show TOk s.cache s.log t (.peeked k none) from thr_at h ht) (fun h => by cases h) (fun h => by cases h)
  | read t k f ht =>
    obtain ⟨hk, hn⟩ := thr_at h ht
    have h1 : callKey t (.read t k f :: s.log) = some k := hk
    have h2 : knownAtCall t (.read t k f :: s.log) = none := hn
    have h3 : ownRead t (.read t k f :: s.log) = some f := by rw [ownRead, if_pos rfl]
    have hans : ∀ j v, answered j (.read t k f :: s.log) = some v → s.cache j = some v := h.ans
    have hkn : ∀ u j v, callKey u (.read t k f :: s.log) = some j → knownAtCall u (.read t k f :: s.log) = some v → s.cache j = some v := h.known
    have hl : LogOk (.read t k f :: s.log) := ⟨hk, hn, h.ok⟩
    cases hr : readUint64 k.1 f with
    | error e =>
      exact inv_event s t (.returning k (.error e)) _ h rfl ⟨h1, h2, f, h3, hr⟩ rfl rfl hans (fun _ _ _ e => by cases e) hkn hl
    | ok v =>
      exact inv_event s t (.got k v) _ h rfl ⟨h1, f, List.mem_cons_self, hr⟩ rfl rfl hans (fun _ _ _ e => by cases e) hkn hl
  | lock t k v ht hl =>
    exact inv_pc s t _ h (show TOk s.cache s.log t (.got k v) from thr_at h ht) (fun _ => .inr hl) (fun h => by cases h)
  | recheck t k v ht =>
    obtain ⟨hk, f, hf, hv⟩ := thr_at h ht
    cases hc : s.cache k with
    | some w => exact inv_pc s t (.leaving k w) h ⟨hk, hc⟩ (fun _ => .inl (by rw [ht]; rfl)) (fun h => by cases h)
    | none => exact inv_pc s t (.storing k v) h ⟨hk, hc, f, hf, hv⟩ (fun _ => .inl (by rw [ht]; rfl)) (fun h => by cases h)
  | store t k v ht =>
    obtain ⟨hk, hc, f, hf, hv⟩ := thr_at h ht
    have hs : ∀ j w, s.cache j = some w → store s.cache k v j = some w := by
      intro j w hj
      have : j ≠ k := fun e => by rw [e, hc] at hj; cases hj
      simp [store, this, hj]
    have hself : store s.cache k v k = some v := by simp [store]
    have htw : (s.pc t).writer = true := by rw [ht]; rfl
    refine ⟨?_, ?_, ?_, ?_, ?_, ?_, h.ok⟩
    · exact (inv_pc s t .idle h trivial (fun h => by cases h) (fun h => by cases h)).excl |> fun _ => by
        intro a b ha hab
        dsimp only at *
        by_cases hat : a = t
        · subst hat
          rw [setPC_ne _ _ _ _ hab]
          exact h.excl a b htw hab
        · rw [setPC_ne _ _ _ _ hat] at ha
          have := (h.excl t a htw hat).1
          rw [this] at ha; cases ha
    · intro j w hj
      by_cases hjk : j = k
      · subst hjk
        have hj' : some v = some w := hself.symm.trans hj
        cases hj'
        exact ⟨t, f, hf, hv⟩
      · exact h.src j w (by simpa [store, hjk] using hj)
    · exact fun j w hj => hs j w (h.ans j w hj)
    · exact fun u j w hj => hs j w (h.rets u j w hj)
    · exact fun u j w h1 h2 => hs j w (h.known u j w h1 h2)
    · intro u
      dsimp only
      by_cases hu : u = t
      · subst hu; rw [setPC_self]; exact ⟨hk, hself⟩
      · rw [setPC_ne _ _ _ _ hu]
        exact TOk_store _ _ _ _ _ _ hc (h.excl t u htw hu).1 (h.thr u)
  | unlock t k v ht => exact inv_pc s t _ h (show TOk s.cache s.log t (.leaving k v) from thr_at h ht) (fun h => by cases h) (fun h => by cases h)
  | ret t k r ht =>
    have hkn : ∀ u j v, callKey u (.ret t k r :: s.log) = some j → knownAtCall u (.ret t k r :: s.log) = some v → s.cache j = some v := h.known
    cases r with
    | error e =>
      obtain ⟨hk, hn, f, hf, hv⟩ := thr_at h ht
      exact inv_event s t .idle _ h rfl trivial rfl rfl h.ans (fun _ _ _ e => by cases e) hkn ⟨hk, hn, ⟨f, hf, hv⟩, h.ok⟩
    | ok v =>
      obtain ⟨hk, hc⟩ := thr_at h ht
      refine inv_event s t .idle _ h rfl trivial rfl rfl ?_ (fun _ _ _ e => by cases e; exact hc) hkn ⟨hk, ?_, ?_, h.src k v hc, h.ok⟩
      · intro j w hj
        by_cases hjk : k = j
        · rw [answered, if_pos hjk] at hj; cases hj; rw [← hjk]; exact hc
        · rw [answered, if_neg hjk] at hj; exact h.ans j w hj
      · intro w hw
        have := h.known t k w hk hw
        rw [hc] at this
        exact Option.some.inj this
      · intro w hw
        have := h.ans k w hw
        rw [hc] at this
        exact Option.some.inj this

theorem inv (s : State) (h : Reach s) : Inv s := by
  induction h with
  | init => exact ⟨(fun _ _ h => by cases h), (fun _ _ h => by cases h), (fun _ _ h => by cases h), (fun _ _ _ h => by cases h), (fun _ _ _ h => by cases h), fun _ => trivial, trivial⟩
  | step s s' _ hs ih => exact inv_step s s' ih hs

theorem logOk_suffix (l1 l2 : List Ev) (h : LogOk (l1 ++ l2)) : LogOk l2 := by
  induction l1 with
  | nil => exact h
  | cons e l1 ih =>
    match e with
    | .call _ _ => exact ih h
    | .read _ _ _ => exact ih h.2.2
    | .ret _ _ (.ok _) => exact ih h.2.2.2.2
    | .ret _ _ (.error _) => exact ih h.2.2.2

/-- **C114.** Whatever the interleaving, and whatever happens to the files: successful calls for one file and format all return the same number. -/
theorem once_agree (s : State) (h : Reach s) (t u : Nat) (k : Key) (v w : BitVec 64) (h1 : .ret t k (.ok v) ∈ s.log) (h2 : .ret u k (.ok w) ∈ s.log) : v = w := by
  have a := (inv s h).rets t k v h1
  rw [(inv s h).rets u k w h2] at a
  exact (Option.some.inj a).symm

/-- **C114.** The number returned was shown by the file of the same key, in the same format, before the call returned; and the call was for that key. -/
theorem once_true (s : State) (h : Reach s) (l1 l2 : List Ev) (t : Nat) (k : Key) (v : BitVec 64) (hl : s.log = l1 ++ .ret t k (.ok v) :: l2) :
    callKey t l2 = some k ∧ (∀ w, knownAtCall t l2 = some w → v = w) ∧ ∃ u f, .read u k f ∈ l2 ∧ Gives k f (.ok v) := by
  have := logOk_suffix l1 _ (hl ▸ (inv s h).ok)
  obtain ⟨a, b, _, ⟨u, f, c, d⟩, _⟩ := this
  exact ⟨a, b, u, f, c, (read_exact _ _ _).mp d⟩

/-- **C114.** An error returned is the error of a read by the same call, which had no answer to begin with: errors are neither remembered nor shared. -/
theorem once_error (s : State) (h : Reach s) (l1 l2 : List Ev) (t : Nat) (k : Key) (e : Err) (hl : s.log = l1 ++ .ret t k (.error e) :: l2) :
    callKey t l2 = some k ∧ knownAtCall t l2 = none ∧ ∃ f, ownRead t l2 = some f ∧ Gives k f (.error e) := by
  have := logOk_suffix l1 _ (hl ▸ (inv s h).ok)
  obtain ⟨a, b, ⟨f, c, d⟩, _⟩ := this
  exact ⟨a, b, f, c, (read_exact _ _ _).mp d⟩

/-- **C114.** Once a call for a key has succeeded, calls for that key which begin afterwards don't read the file any more. -/
theorem once_memo (s : State) (h : Reach s) (l1 l2 : List Ev) (t : Nat) (k : Key) (f : Except Nat Bytes) (hl : s.log = l1 ++ .read t k f :: l2) :
    callKey t l2 = some k ∧ knownAtCall t l2 = none := by
  have := logOk_suffix l1 _ (hl ▸ (inv s h).ok)
  exact ⟨this.1, this.2.1⟩

/-- **C114.** While a goroutine changes the table no other one looks at it or changes it. -/
theorem once_no_race (s : State) (h : Reach s) (t u : Nat) (hu : u ≠ t) (hw : Writes (s.pc t)) : ¬ Accesses (s.pc u) := by
  have htw : (s.pc t).writer = true := by
    cases hp : s.pc t <;> rw [hp] at hw <;> first | rfl | exact hw.elim
  have := (inv s h).excl t u htw hu
  intro ha
  cases hp : s.pc u <;> rw [hp] at ha this <;> first | exact ha.elim | simp [PC.writer, PC.reader] at this

/-- **C114.** Goroutines never block each other for good: while a call is running, some running call can go on. -/
theorem once_progress (s : State) (t : Nat) (ht : s.pc t ≠ .idle) :
    ∃ u s', Step s s' ∧ s.pc u ≠ .idle ∧ s'.pc u ≠ s.pc u := by
  by_cases hw : ∃ u, (s.pc u).writer = true
  · obtain ⟨u, hu⟩ := hw
    cases hp : s.pc u with
    | wlocked k v =>
      refine ⟨u, _, .recheck s u k v hp, by rw [hp]; simp, ?_⟩
      dsimp only
      rw [setPC_self, hp]
      cases s.cache k <;> simp
    | storing k v => exact ⟨u, _, .store s u k v hp, by rw [hp]; simp, by dsimp only; rw [setPC_self, hp]; simp⟩
    | leaving k v => exact ⟨u, _, .unlock s u k v hp, by rw [hp]; simp, by dsimp only; rw [setPC_self, hp]; simp⟩
    | _ => rw [hp] at hu; cases hu
  · have hw' : ∀ u, (s.pc u).writer = false := fun u => by
      cases h : (s.pc u).writer with
      | false => rfl
      | true => exact absurd ⟨u, h⟩ hw
    by_cases hr : ∃ u, (s.pc u).reader = true
    · obtain ⟨u, hu⟩ := hr
      cases hp : s.pc u with
      | rlocked k => exact ⟨u, _, .peek s u k hp, by rw [hp]; simp, by dsimp only; rw [setPC_self, hp]; simp⟩
      | peeked k o =>
        cases o with
        | none => exact ⟨u, _, .miss s u k hp, by rw [hp]; simp, by dsimp only; rw [setPC_self, hp]; simp⟩
        | some v => exact ⟨u, _, .hit s u k v hp, by rw [hp]; simp, by dsimp only; rw [setPC_self, hp]; simp⟩
      | _ => rw [hp] at hu; cases hu
    · have hr' : ∀ u, (s.pc u).reader = false := fun u => by
        cases h : (s.pc u).reader with
        | false => rfl
        | true => exact absurd ⟨u, h⟩ hr
      cases hp : s.pc t with
      | idle => exact absurd hp ht
      | entered k => exact ⟨t, _, .rlock s t k hp hw', by rw [hp]; simp, by dsimp only; rw [setPC_self, hp]; simp⟩
      | missed k =>
        refine ⟨t, _, .read s t k (.error 0) hp, by rw [hp]; simp, ?_⟩
        dsimp only
        rw [setPC_self, hp]
        cases readUint64 k.1 (.error 0) <;> simp
      | got k v => exact ⟨t, _, .lock s t k v hp fun u => ⟨hw' u, hr' u⟩, by rw [hp]; simp, by dsimp only; rw [setPC_self, hp]; simp⟩
      | returning k r => exact ⟨t, _, .ret s t k r hp, by rw [hp]; simp, by dsimp only; rw [setPC_self, hp]; simp⟩
      | rlocked k => have := hr' t; rw [hp] at this; cases this
      | peeked k o => have := hr' t; rw [hp] at this; cases this
      | wlocked k v => have := hw' t; rw [hp] at this; cases this
      | storing k v => have := hw' t; rw [hp] at this; cases this
      | leaving k v => have := hw' t; rw [hp] at this; cases this

/-! ## FeatureCache.retrieve by any number of goroutines -/

namespace Probes

/-- What is true of goroutine `t` at program counter `p`. -/
def TOk (features : Nat → Option Nat) (log : List Ev) (t : Nat) (p : PC) : Prop :=
  match p with
  | .idle => True
  | .entered k | .rlocked k | .peeked k none | .missed k | .wlocked k => probeKey t log = some k
  | .peeked k (some f) | .leaving k f | .returning k f => probeKey t log = some k ∧ features k = some f
  | .making k => probeKey t log = some k ∧ features k = none ∧ making log = 1
  | .storing k f => probeKey t log = some k ∧ features k = none ∧ .made t k f ∈ log

/-- The property of the log: a test is begun to be made only if none is being made, and none was begun for the key; tests are returned for the key asked for. -/
def LogOk : List Ev → Prop
  | [] => True
  | .call _ _ :: l => LogOk l
  | .start t k :: l => probeKey t l = some k ∧ making l = 0 ∧ starts k l = 0 ∧ LogOk l
  | .made t k _ :: l => probeKey t l = some k ∧ LogOk l
  | .ret t k f :: l => probeKey t l = some k ∧ (∃ u, .made u k f ∈ l) ∧ LogOk l

/-- What is true of every reachable state. -/
structure Inv (s : State) : Prop where
  excl : ∀ t u, (s.pc t).writer = true → u ≠ t → (s.pc u).writer = false ∧ (s.pc u).reader = false
  src : ∀ k f, s.features k = some f → ∃ u, .made u k f ∈ s.log
  rets : ∀ t k f, .ret t k f ∈ s.log → s.features k = some f
  fresh : ∀ t k f, .made t k f ∈ s.log → f < s.next
  uniq : ∀ t u k j f, .made t k f ∈ s.log → .made u j f ∈ s.log → k = j
  one : ∀ k, starts k s.log ≤ 1
  zero : ∀ k, s.features k = none → (∀ t, s.pc t ≠ .making k ∧ ∀ f, s.pc t ≠ .storing k f) → starts k s.log = 0
  idle : (∀ t k, s.pc t ≠ .making k) → making s.log = 0
  thr : ∀ t, TOk s.features s.log t (s.pc t)
  ok : LogOk s.log

/-- The goroutine of an event. -/
def evThread : Ev → Nat
  | .call t _ | .start t _ | .made t _ _ | .ret t _ _ => t

/-- An event of another goroutine changes nothing for `u`, provided that `u` isn't making a test or the event isn't about that. -/
theorem TOk_event (features : Nat → Option Nat) (log : List Ev) (u : Nat) (p : PC) (e : Ev) (he : evThread e ≠ u)
    (hm : (∀ k, p ≠ .making k) ∨ making (e :: log) = making log) (h : TOk features log u p) :
    TOk features (e :: log) u p := by
  have h1 : probeKey u (e :: log) = probeKey u log := by
    cases e with
    | call t k => rw [probeKey, if_neg (show ¬ t = u from he)]
    | _ => rfl
  match p with
  | .idle => trivial
  | .entered k => exact h1.trans h
  | .rlocked k => exact h1.trans h
  | .peeked k (some v) => exact ⟨h1.trans h.1, h.2⟩
  | .peeked k none => exact h1.trans h
  | .missed k => exact h1.trans h
  | .wlocked k => exact h1.trans h
  | .making k =>
    rcases hm with hm | hm
    · exact absurd rfl (hm k)
    · exact ⟨h1.trans h.1, h.2.1, hm.trans h.2.2⟩
  | .storing k v => exact ⟨h1.trans h.1, h.2.1, List.mem_cons_of_mem _ h.2.2⟩
  | .leaving k v => exact ⟨h1.trans h.1, h.2⟩
  | .returning k v => exact ⟨h1.trans h.1, h.2⟩

/-- Storing a test nobody had stored changes nothing for those who don't write. -/
theorem TOk_store (features : Nat → Option Nat) (log : List Ev) (u : Nat) (p : PC) (k f : Nat) (hk : features k = none)
    (hp : p.writer = false) (h : TOk features log u p) : TOk (store features k f) log u p := by
  have hs : ∀ j w, features j = some w → store features k f j = some w := by
    intro j w hj
    have : j ≠ k := fun e => by rw [e, hk] at hj; cases hj
    simp [store, this, hj]
  match p with
  | .idle => trivial
  | .entered _ => exact h
  | .rlocked _ => exact h
  | .peeked _ (some _) => exact ⟨h.1, hs _ _ h.2⟩
  | .peeked _ none => exact h
  | .missed _ => exact h
  | .wlocked _ => cases hp
  | .making _ => cases hp
  | .storing _ _ => cases hp
  | .leaving _ _ => cases hp
  | .returning _ _ => exact ⟨h.1, hs _ _ h.2⟩

/-- Locks are excluded after a step of `t` to `p`. -/
theorem excl_pc (pc : Nat → PC) (t : Nat) (p : PC) (h : ∀ t u, (pc t).writer = true → u ≠ t → (pc u).writer = false ∧ (pc u).reader = false)
    (hw : p.writer = true → (pc t).writer = true ∨ ∀ u, (pc u).writer = false ∧ (pc u).reader = false)
    (hr : p.reader = true → (pc t).reader = true ∨ ∀ u, (pc u).writer = false) :
    ∀ a b, (setPC pc t p a).writer = true → b ≠ a → (setPC pc t p b).writer = false ∧ (setPC pc t p b).reader = false := by
  intro a b ha hab
  by_cases hat : a = t
  · subst hat
    rw [setPC_self] at ha
    rw [setPC_ne _ _ _ _ hab]
    rcases hw ha with h1 | h1
    · exact h a b h1 hab
    · exact h1 b
  · rw [setPC_ne _ _ _ _ hat] at ha
    by_cases hbt : b = t
    · subst hbt
      rw [setPC_self]
      have hx := h a b ha hab
      refine ⟨?_, ?_⟩
      · cases hpw : p.writer with
        | false => rfl
        | true =>
          rcases hw hpw with h1 | h1
          · rw [hx.1] at h1; cases h1
          · rw [(h1 a).1] at ha; cases ha
      · cases hpr : p.reader with
        | false => rfl
        | true =>
          rcases hr hpr with h1 | h1
          · rw [hx.2] at h1; cases h1
          · rw [h1 a] at ha; cases ha
    · rw [setPC_ne _ _ _ _ hbt]
      exact h a b ha hab

/-- A step which changes only the program counter of `t`, which neither makes nor stores before or after. -/
theorem inv_pc (s : State) (t : Nat) (p : PC) (h : Inv s) (hp : TOk s.features s.log t p)
    (hw : p.writer = true → (s.pc t).writer = true ∨ ∀ u, (s.pc u).writer = false ∧ (s.pc u).reader = false)
    (hr : p.reader = true → (s.pc t).reader = true ∨ ∀ u, (s.pc u).writer = false)
    (hm : ∀ k, s.pc t ≠ .making k ∧ ∀ f, s.pc t ≠ .storing k f) : Inv { s with pc := setPC s.pc t p } := by
  refine ⟨excl_pc _ _ _ h.excl hw hr, h.src, h.rets, h.fresh, h.uniq, h.one, ?_, ?_, ?_, h.ok⟩
  · intro k hk hn
    refine h.zero k hk fun u => ?_
    by_cases hu : u = t
    · subst hu; exact hm k
    · have := hn u
      dsimp only at this
      rw [setPC_ne _ _ _ _ hu] at this
      exact this
  · intro hn
    refine h.idle fun u k => ?_
    by_cases hu : u = t
    · subst hu; exact (hm k).1
    · have := hn u k
      dsimp only at this
      rw [setPC_ne _ _ _ _ hu] at this
      exact this
  · intro u
    dsimp only
    by_cases hu : u = t
    · subst hu; rw [setPC_self]; exact hp
    · rw [setPC_ne _ _ _ _ hu]; exact h.thr u

theorem thr_at {s : State} (h : Inv s) {t : Nat} {p : PC} (hp : s.pc t = p) : TOk s.features s.log t p := hp ▸ h.thr t

/-- An event (a call or a return) which leaves the tests as they are. -/
theorem inv_event (s : State) (t : Nat) (p : PC) (e : Ev) (h : Inv s) (he : evThread e = t) (hp : TOk s.features (e :: s.log) t p)
    (hw : p.writer = false) (hr : p.reader = false) (hm : ∀ k, s.pc t ≠ .making k ∧ ∀ f, s.pc t ≠ .storing k f)
    (h1 : making (e :: s.log) = making s.log) (h2 : ∀ k, starts k (e :: s.log) = starts k s.log) (h3 : ∀ u k f, e ≠ .made u k f)
    (hrets : ∀ u k f, e = .ret u k f → s.features k = some f) (hl : LogOk (e :: s.log)) :
    Inv { s with pc := setPC s.pc t p, log := e :: s.log } := by
  have hmade : ∀ u k f, Ev.made u k f ∈ e :: s.log → Ev.made u k f ∈ s.log := by
    intro u k f hx
    rcases List.mem_cons.mp hx with hx | hx
    · exact absurd hx.symm (h3 u k f)
    · exact hx
  refine ⟨excl_pc _ _ _ h.excl (fun x => by rw [hw] at x; cases x) (fun x => by rw [hr] at x; cases x), ?_, ?_, ?_, ?_, ?_, ?_, ?_, ?_, hl⟩
  · intro k f hk
    obtain ⟨u, hu⟩ := h.src k f hk
    exact ⟨u, List.mem_cons_of_mem _ hu⟩
  · intro u k f hx
    rcases List.mem_cons.mp hx with hx | hx
    · exact hrets u k f hx.symm
    · exact h.rets u k f hx
  · exact fun u k f hx => h.fresh u k f (hmade _ _ _ hx)
  · exact fun u v k j f hx hy => h.uniq u v k j f (hmade _ _ _ hx) (hmade _ _ _ hy)
  · intro k; dsimp only; rw [h2]; exact h.one k
  · intro k hk hn
    dsimp only
    rw [h2]
    refine h.zero k hk fun u => ?_
    by_cases hu : u = t
    · subst hu; exact hm k
    · have := hn u
      dsimp only at this
      rw [setPC_ne _ _ _ _ hu] at this
      exact this
  · intro hn
    dsimp only
    rw [h1]
    refine h.idle fun u k => ?_
    by_cases hu : u = t
    · subst hu; exact (hm k).1
    · have := hn u k
      dsimp only at this
      rw [setPC_ne _ _ _ _ hu] at this
      exact this
  · intro u
    dsimp only
    by_cases hu : u = t
    · subst hu; rw [setPC_self]; exact hp
    · rw [setPC_ne _ _ _ _ hu]
      exact TOk_event _ _ _ _ _ (by rw [he]; exact fun x => hu x.symm) (.inr h1) (h.thr u)

theorem inv_step (s s' : State) (h : Inv s) (hs : Step s s') : Inv s' := by
  cases hs with
  | call t k ht =>
    refine inv_event s t _ (.call t k) h rfl ?_ rfl rfl (by rw [ht]; simp) rfl (fun _ => rfl) (by simp) (by simp) h.ok
    show probeKey t (.call t k :: s.log) = some k
    rw [probeKey, if_pos rfl]
  | rlock t k ht hw =>
    exact inv_pc s t _ h (show TOk s.features s.log t (.entered k) from thr_at h ht) (fun h => by cases h) (fun _ => .inr hw) (by rw [ht]; simp)
  | peek t k ht =>
    refine inv_pc s t _ h ?_ (fun h => by cases h) (fun _ => .inl (by rw [ht]; rfl)) (by rw [ht]; simp)
    have hk : probeKey t s.log = some k := thr_at h ht
    cases hc : s.features k with
    | some v => exact ⟨hk, hc⟩
    | none => exact hk
  | hit t k f ht => exact inv_pc s t _ h (show TOk s.features s.log t (.peeked k (some f)) from thr_at h ht) (fun h => by cases h) (fun h => by cases h) (by rw [ht]; simp)
  | miss t k ht => exact inv_pc s t _ h (show TOk s.features s.log t (.peeked k none) from thr_at h ht) (fun h => by cases h) (fun h => by cases h) (by rw [ht]; simp)
  | lock t k ht hl =>
    exact inv_pc s t _ h (show TOk s.features s.log t (.missed k) from thr_at h ht) (fun _ => .inr hl) (fun h => by cases h) (by rw [ht]; simp)
  | recheckHit t k f ht hf =>
    have hk : probeKey t s.log = some k := thr_at h ht
    exact inv_pc s t (.leaving k f) h ⟨hk, hf⟩ (fun _ => .inl (by rw [ht]; rfl)) (fun h => by cases h) (by rw [ht]; simp)
  | start t k ht hf =>
    have hk : probeKey t s.log = some k := thr_at h ht
    have htw : (s.pc t).writer = true := by rw [ht]; rfl
    have hno : ∀ u j, s.pc u ≠ .making j ∧ ∀ f, s.pc u ≠ .storing j f := by
      intro u j
      by_cases hu : u = t
      · subst hu; rw [ht]; simp
      · have := (h.excl t u htw hu).1
        refine ⟨fun e => ?_, fun f e => ?_⟩ <;> rw [e] at this <;> cases this
    have h0 : starts k s.log = 0 := h.zero k hf fun u => hno u k
    have hm0 : making s.log = 0 := h.idle fun u j => (hno u j).1
    have hmade : ∀ u k' f, Ev.made u k' f ∈ Ev.start t k :: s.log → Ev.made u k' f ∈ s.log := by
      intro u k' f hx
      rcases List.mem_cons.mp hx with hx | hx
      · cases hx
      · exact hx
    refine ⟨excl_pc _ _ _ h.excl (fun _ => .inl htw) (fun x => by cases x), ?_, ?_, ?_, ?_, ?_, ?_, ?_, ?_, ⟨hk, hm0, h0, h.ok⟩⟩
    · intro j f hj
      obtain ⟨u, hu⟩ := h.src j f hj
      exact ⟨u, List.mem_cons_of_mem _ hu⟩
    · intro u j f hx
      rcases List.mem_cons.mp hx with hx | hx
      · cases hx
      · exact h.rets u j f hx
    · exact fun u j f hx => h.fresh u j f (hmade _ _ _ hx)
    · exact fun u v i j f hx hy => h.uniq u v i j f (hmade _ _ _ hx) (hmade _ _ _ hy)
    · intro j
      show (if k = j then 1 else 0) + starts j s.log ≤ 1
      by_cases hj : k = j
      · subst hj; rw [if_pos rfl, h0]; omega
      · rw [if_neg hj]; have := h.one j; omega
    · intro j hj hn
      show (if k = j then 1 else 0) + starts j s.log = 0
      by_cases hkj : k = j
      · subst hkj
        have := (hn t).1
        dsimp only at this
        rw [setPC_self] at this
        exact absurd rfl this
      · rw [if_neg hkj, h.zero j hj fun u => hno u j]
    · intro hn
      have := hn t k
      dsimp only at this
      rw [setPC_self] at this
      exact absurd rfl this
    · intro u
      dsimp only
      by_cases hu : u = t
      · subst hu
        rw [setPC_self]
        exact ⟨hk, hf, by show making s.log + 1 = 1; omega⟩
      · rw [setPC_ne _ _ _ _ hu]
        exact TOk_event _ _ _ _ _ (fun x => hu x.symm) (.inl fun j => (hno u j).1) (h.thr u)
  | make t k ht =>
    obtain ⟨hk, hf, hm⟩ := thr_at h ht
    have htw : (s.pc t).writer = true := by rw [ht]; rfl
    have hno : ∀ u, u ≠ t → ∀ j, s.pc u ≠ .making j := by
      intro u hu j e
      have := (h.excl t u htw hu).1
      rw [e] at this; cases this
    refine ⟨excl_pc _ _ _ h.excl (fun _ => .inl htw) (fun x => by cases x), ?_, ?_, ?_, ?_, h.one, ?_, ?_, ?_, ⟨hk, h.ok⟩⟩
    · intro j f hj
      obtain ⟨u, hu⟩ := h.src j f hj
      exact ⟨u, List.mem_cons_of_mem _ hu⟩
    · intro u j f hx
      rcases List.mem_cons.mp hx with hx | hx
      · cases hx
      · exact h.rets u j f hx
    · intro u j f hx
      dsimp only
      rcases List.mem_cons.mp hx with hx | hx
      · cases hx; omega
      · have := h.fresh u j f hx; omega
    · intro u v i j f hx hy
      rcases List.mem_cons.mp hx with hx | hx
      · cases hx
        rcases List.mem_cons.mp hy with hy | hy
        · cases hy; rfl
        · have := h.fresh _ _ _ hy; omega
      · rcases List.mem_cons.mp hy with hy | hy
        · cases hy; have := h.fresh _ _ _ hx; omega
        · exact h.uniq u v i j f hx hy
    · intro j hj hn
      show starts j s.log = 0
      refine h.zero j hj fun u => ?_
      by_cases hu : u = t
      · subst hu
        have := (hn u).2
        dsimp only at this
        rw [setPC_self] at this
        rw [ht]
        refine ⟨fun e => ?_, fun f e => by cases e⟩
        cases e
        exact this _ rfl
      · have := hn u
        dsimp only at this
        rw [setPC_ne _ _ _ _ hu] at this
        exact this
    · intro _
      show making s.log - 1 = 0
      omega
    · intro u
      dsimp only
      by_cases hu : u = t
      · subst hu
        rw [setPC_self]
        exact ⟨hk, hf, List.mem_cons_self⟩
      · rw [setPC_ne _ _ _ _ hu]
        exact TOk_event _ _ _ _ _ (fun x => hu x.symm) (.inl (hno u hu)) (h.thr u)
  | store t k f ht =>
    obtain ⟨hk, hc, hf⟩ := thr_at h ht
    have htw : (s.pc t).writer = true := by rw [ht]; rfl
    have hs : ∀ j w, s.features j = some w → store s.features k f j = some w := by
      intro j w hj
      have : j ≠ k := fun e => by rw [e, hc] at hj; cases hj
      simp [store, this, hj]
    have hself : store s.features k f k = some f := by simp [store]
    refine ⟨excl_pc _ _ _ h.excl (fun _ => .inl htw) (fun x => by cases x), ?_, ?_, h.fresh, h.uniq, h.one, ?_, ?_, ?_, h.ok⟩
    · intro j w hj
      by_cases hjk : j = k
      · subst hjk
        have hj' : some f = some w := hself.symm.trans hj
        cases hj'
        exact ⟨t, hf⟩
      · exact h.src j w (by simpa [store, hjk] using hj)
    · exact fun u j w hj => hs j w (h.rets u j w hj)
    · intro j hj hn
      by_cases hjk : j = k
      · subst hjk
        have hj' : some f = none := hself.symm.trans hj
        cases hj'
      · refine h.zero j (by simpa [store, hjk] using hj) fun u => ?_
        by_cases hu : u = t
        · subst hu
          rw [ht]
          refine ⟨(fun e => by cases e), fun g e => ?_⟩
          cases e
          exact hjk rfl
        · have := hn u
          dsimp only at this
          rw [setPC_ne _ _ _ _ hu] at this
          exact this
    · intro hn
      refine h.idle fun u j => ?_
      by_cases hu : u = t
      · subst hu; rw [ht]; simp
      · have := hn u j
        dsimp only at this
        rw [setPC_ne _ _ _ _ hu] at this
        exact this
    · intro u
      dsimp only
      by_cases hu : u = t
      · subst hu; rw [setPC_self]; exact ⟨hk, hself⟩
      · rw [setPC_ne _ _ _ _ hu]
        exact TOk_store _ _ _ _ _ _ hc (h.excl t u htw hu).1 (h.thr u)
  | unlock t k f ht => exact inv_pc s t _ h (show TOk s.features s.log t (.leaving k f) from thr_at h ht) (fun h => by cases h) (fun h => by cases h) (by rw [ht]; simp)
  | ret t k f ht =>
    obtain ⟨hk, hc⟩ := thr_at h ht
    exact inv_event s t .idle (.ret t k f) h rfl trivial rfl rfl (by rw [ht]; simp) rfl (fun _ => rfl) (by simp)
      (fun u j g e => by cases e; exact hc) ⟨hk, h.src k f hc, h.ok⟩

theorem inv (s : State) (h : Reach s) : Inv s := by
  induction h with
  | init =>
    exact ⟨(fun _ _ h => by cases h), (fun _ _ h => by cases h), (fun _ _ _ h => by cases h), (fun _ _ _ h => by cases h), (fun _ _ _ _ _ h => by cases h),
      fun _ => Nat.zero_le _, fun _ _ _ => rfl, fun _ => rfl, fun _ => trivial, trivial⟩
  | step s s' _ hs ih => exact inv_step s s' ih hs

theorem logOk_suffix (l1 l2 : List Ev) (h : LogOk (l1 ++ l2)) : LogOk l2 := by
  induction l1 with
  | nil => exact h
  | cons e l1 ih =>
    match e with
    | .call _ _ => exact ih h
    | .start _ _ => exact ih h.2.2.2
    | .made _ _ _ => exact ih h.2
    | .ret _ _ _ => exact ih h.2.2

/-- **C114.** For one key everyone gets the same test; for different keys, different ones. -/
theorem retrieve_agree (s : State) (h : Reach s) (t u k j f g : Nat) (h1 : .ret t k f ∈ s.log) (h2 : .ret u j g ∈ s.log) : k = j ↔ f = g := by
  have a := (inv s h).rets t k f h1
  have b := (inv s h).rets u j g h2
  constructor
  · rintro rfl
    rw [a] at b
    exact Option.some.inj b
  · rintro rfl
    obtain ⟨x, hx⟩ := (inv s h).src k f a
    obtain ⟨y, hy⟩ := (inv s h).src j f b
    exact (inv s h).uniq x y k j f hx hy

/-- **C114.** The test returned was made for the key which the call asked for. -/
theorem retrieve_true (s : State) (h : Reach s) (l1 l2 : List Ev) (t k f : Nat) (hl : s.log = l1 ++ .ret t k f :: l2) :
    probeKey t l2 = some k ∧ ∃ u, .made u k f ∈ l2 := by
  have := logOk_suffix l1 _ (hl ▸ (inv s h).ok)
  exact ⟨this.1, this.2.1⟩

/-- **C114.** `newTest` is called at most once for a key, for a key which is being asked for, and never by two goroutines at the same time. -/
theorem retrieve_once (s : State) (h : Reach s) :
    (∀ k, starts k s.log ≤ 1) ∧
    ∀ l1 l2 t k, s.log = l1 ++ .start t k :: l2 → probeKey t l2 = some k ∧ making l2 = 0 := by
  refine ⟨(inv s h).one, fun l1 l2 t k hl => ?_⟩
  have := logOk_suffix l1 _ (hl ▸ (inv s h).ok)
  exact ⟨this.1, this.2.1⟩

/-- **C114.** While a goroutine changes the table of tests no other one looks at it or changes it. -/
theorem retrieve_no_race (s : State) (h : Reach s) (t u : Nat) (hu : u ≠ t) (hw : ProbeWrites (s.pc t)) : ¬ ProbeAccesses (s.pc u) := by
  have htw : (s.pc t).writer = true := by
    cases hp : s.pc t <;> rw [hp] at hw <;> first | rfl | exact hw.elim
  have := (inv s h).excl t u htw hu
  intro ha
  cases hp : s.pc u <;> rw [hp] at ha this <;> first | exact ha.elim | simp [PC.writer, PC.reader] at this

/-- **C114.** Goroutines never block each other for good: while a call is running, some running call can go on. -/
theorem retrieve_progress (s : State) (t : Nat) (ht : s.pc t ≠ .idle) :
    ∃ u s', Step s s' ∧ s.pc u ≠ .idle ∧ s'.pc u ≠ s.pc u := by
  by_cases hw : ∃ u, (s.pc u).writer = true
  · obtain ⟨u, hu⟩ := hw
    cases hp : s.pc u with
    | wlocked k =>
      cases hc : s.features k with
      | some f => exact ⟨u, _, .recheckHit s u k f hp hc, by rw [hp]; simp, by dsimp only; rw [setPC_self, hp]; simp⟩
      | none => exact ⟨u, _, .start s u k hp hc, by rw [hp]; simp, by dsimp only; rw [setPC_self, hp]; simp⟩
    | making k => exact ⟨u, _, .make s u k hp, by rw [hp]; simp, by dsimp only; rw [setPC_self, hp]; simp⟩
    | storing k v => exact ⟨u, _, .store s u k v hp, by rw [hp]; simp, by dsimp only; rw [setPC_self, hp]; simp⟩
    | leaving k v => exact ⟨u, _, .unlock s u k v hp, by rw [hp]; simp, by dsimp only; rw [setPC_self, hp]; simp⟩
    | _ => rw [hp] at hu; cases hu
  · have hw' : ∀ u, (s.pc u).writer = false := fun u => by
      cases h : (s.pc u).writer with
      | false => rfl
      | true => exact absurd ⟨u, h⟩ hw
    by_cases hr : ∃ u, (s.pc u).reader = true
    · obtain ⟨u, hu⟩ := hr
      cases hp : s.pc u with
      | rlocked k => exact ⟨u, _, .peek s u k hp, by rw [hp]; simp, by dsimp only; rw [setPC_self, hp]; simp⟩
      | peeked k o =>
        cases o with
        | none => exact ⟨u, _, .miss s u k hp, by rw [hp]; simp, by dsimp only; rw [setPC_self, hp]; simp⟩
        | some v => exact ⟨u, _, .hit s u k v hp, by rw [hp]; simp, by dsimp only; rw [setPC_self, hp]; simp⟩
      | _ => rw [hp] at hu; cases hu
    · have hr' : ∀ u, (s.pc u).reader = false := fun u => by
        cases h : (s.pc u).reader with
        | false => rfl
        | true => exact absurd ⟨u, h⟩ hr
      cases hp : s.pc t with
      | idle => exact absurd hp ht
      | entered k => exact ⟨t, _, .rlock s t k hp hw', by rw [hp]; simp, by dsimp only; rw [setPC_self, hp]; simp⟩
      | missed k => exact ⟨t, _, .lock s t k hp fun u => ⟨hw' u, hr' u⟩, by rw [hp]; simp, by dsimp only; rw [setPC_self, hp]; simp⟩
      | returning k r => exact ⟨t, _, .ret s t k r hp, by rw [hp]; simp, by dsimp only; rw [setPC_self, hp]; simp⟩
      | rlocked k => have := hr' t; rw [hp] at this; cases this
      | peeked k o => have := hr' t; rw [hp] at this; cases this
      | wlocked k => have := hw' t; rw [hp] at this; cases this
      | making k => have := hw' t; rw [hp] at this; cases this
      | storing k v => have := hw' t; rw [hp] at this; cases this
      | leaving k v => have := hw' t; rw [hp] at this; cases this

end Probes

/-! ## The hypotheses are met -/

/-- The file of the type of a PMU (`8` and a newline) and of the bit of return probes (`config:0`). -/
example : readUint64 [] (.ok [0x38, 0x0a]) = .ok 8 ∧ readUint64 [0x63, 0x6f, 0x6e, 0x66, 0x69, 0x67, 0x3a] (.ok [0x63, 0x6f, 0x6e, 0x66, 0x69, 0x67, 0x3a, 0x30, 0x0a]) = .ok 0 ∧
    readUint64 [] (.ok [0x78]) = .error .parse := by decide

/-- Two goroutines both miss, and read different numbers: both return the number of the first one to store. -/
example : ∃ s, Reach s ∧ .ret 0 ([], []) (.ok 7) ∈ s.log ∧ .ret 1 ([], []) (.ok 7) ∈ s.log ∧ .read 1 ([], []) (.ok [0x38]) ∈ s.log := by
  let k : Key := ([], [])
  have e7 : readUint64 k.1 (.ok [0x37]) = .ok 7 := by decide
  have e8 : readUint64 k.1 (.ok [0x38]) = .ok 8 := by decide
  have r0 := Reach.init
  have r1 := Reach.step _ _ r0 (.call _ 0 k rfl)
  have r2 := Reach.step _ _ r1 (.call _ 1 k (by simp [setPC, init]))
  have r3 := Reach.step _ _ r2 (.rlock _ 0 k (by simp [setPC, init]) (by intro u; simp only [setPC, init]; split <;> (try split) <;> rfl))
  have r4 := Reach.step _ _ r3 (.rlock _ 1 k (by simp [setPC, init]) (by intro u; simp only [setPC, init]; split <;> (try split) <;> (try split) <;> rfl))
  have r5 := Reach.step _ _ r4 (.peek _ 0 k (by simp [setPC, init]))
  have r6 := Reach.step _ _ r5 (.peek _ 1 k (by simp [setPC, init]))
  have r7 := Reach.step _ _ r6 (.miss _ 0 k (by simp [setPC, init]))
  have r8 := Reach.step _ _ r7 (.miss _ 1 k (by simp [setPC, init]))
  have r9 := Reach.step _ _ r8 (.read _ 0 k (.ok [0x37]) (by simp [setPC, init]))
  have r10 := Reach.step _ _ r9 (.read _ 1 k (.ok [0x38]) (by simp [setPC, init]))
  simp only [e7, e8] at r10
  have r11 := Reach.step _ _ r10 (.lock _ 0 k 7 (by simp [setPC, init]) (by
    intro u
    by_cases h0 : u = 0
    · subst h0; exact ⟨rfl, rfl⟩
    · by_cases h1 : u = 1
      · subst h1; exact ⟨rfl, rfl⟩
      · simp [setPC, init, h0, h1, PC.reader, PC.writer]))
  have r12 := Reach.step _ _ r11 (.recheck _ 0 k 7 (by simp [setPC, init]))
  have r13 := Reach.step _ _ r12 (.store _ 0 k 7 (by simp [setPC, init]))
  have r14 := Reach.step _ _ r13 (.unlock _ 0 k 7 (by simp [setPC, init]))
  have r15 := Reach.step _ _ r14 (.lock _ 1 k 8 (by simp [setPC, init]) (by
    intro u
    by_cases h0 : u = 0
    · subst h0; exact ⟨rfl, rfl⟩
    · by_cases h1 : u = 1
      · subst h1; exact ⟨rfl, rfl⟩
      · simp [setPC, init, h0, h1, PC.reader, PC.writer]))
  have r16 := Reach.step _ _ r15 (.recheck _ 1 k 8 (by simp [setPC, init]))
  have r17 := Reach.step _ _ r16 (.unlock _ 1 k 7 (by simp [setPC, init, store]))
  have r18 := Reach.step _ _ r17 (.ret _ 0 k (.ok 7) (by simp [setPC, init]))
  have r19 := Reach.step _ _ r18 (.ret _ 1 k (.ok 7) (by simp [setPC, init]))
  exact ⟨_, r19, by simp [k], by simp [k], by simp [k]⟩

end Ebpf.OnceCache
