import Verif.Model.VerifierText
import Verif.Spec.VerifierText
/-!
# C113: the text of a verifier error
-/
namespace Ebpf.VerifierText
open Ebpf.ProgLoad Ebpf.VerifierText.Spec

theorem lit_text (s : String) : lit s = text s := rfl

theorem itoa_dec (n : Nat) : itoa n = Ebpf.KernelInfoSpec.dec n := by
  induction n using Nat.strongRecOn with
  | ind n ih =>
    rw [itoa, Ebpf.KernelInfoSpec.dec]
    by_cases h : n < 10
    · rw [if_pos h, if_pos h]; rfl
    · rw [if_neg h, if_neg h, ih (n / 10) (by omega)]; rfl

theorem note_exact (sep : Bytes) (n : Nat) (t : Bytes) : Note sep n t ↔ t = note sep n := by
  unfold Note note
  by_cases h : n = 0
  · subst h; simp
  · rw [if_pos (by omega), itoa_dec]
    constructor
    · rintro (⟨h0, _⟩ | ⟨_, rfl⟩)
      · exact absurd h0 h
      · rfl
    · rintro rfl; exact Or.inr ⟨h, rfl⟩

theorem white_iff (c : Byte) : White c ↔ isSpaceGo c = true := by
  unfold White isSpaceGo
  simp only [List.mem_cons, List.not_mem_nil, or_false, Bool.or_eq_true, decide_eq_true_eq, or_assoc]

theorem dropWhile_split (p : Byte → Bool) (l : Bytes) : ∃ a, l = a ++ l.dropWhile p ∧ (∀ c ∈ a, p c = true) ∧ ∀ c, (l.dropWhile p).head? = some c → p c = false := by
  induction l with
  | nil => exact ⟨[], rfl, by simp, by simp⟩
  | cons x l ih =>
    obtain ⟨a, h1, h2, h3⟩ := ih
    by_cases hx : p x = true
    · rw [List.dropWhile_cons_of_pos hx]
      refine ⟨x :: a, by rw [List.cons_append, ← h1], ?_, h3⟩
      intro c hc
      rcases List.mem_cons.1 hc with rfl | hc
      · exact hx
      · exact h2 c hc
    · rw [List.dropWhile_cons_of_neg hx]
      refine ⟨[], rfl, by simp, ?_⟩
      intro c hc
      simp only [List.head?_cons, Option.some.injEq] at hc
      subst hc
      simpa using hx

theorem dropWhile_append_of (p : Byte → Bool) (a t : Bytes) (ha : ∀ c ∈ a, p c = true) (ht : ∀ c, t.head? = some c → p c = false) : (a ++ t).dropWhile p = t := by
  induction a with
  | nil =>
    cases t with
    | nil => rfl
    | cons x t =>
      have : p x = false := ht x rfl
      rw [List.nil_append, List.dropWhile_cons_of_neg (by simp [this])]
  | cons x a ih =>
    rw [List.cons_append, List.dropWhile_cons_of_pos (ha x (by simp))]
    exact ih fun c hc => ha c (by simp [hc])

theorem trimmed_iff (l t : Bytes) : Trimmed l t ↔ t = trimSpace l := by
  constructor
  · rintro ⟨a, b, rfl, ha, hb, h1, h2⟩
    have ha' : ∀ c ∈ a, isSpaceGo c = true := fun c hc => (white_iff c).1 (ha c hc)
    have hb' : ∀ c ∈ b.reverse, isSpaceGo c = true := fun c hc => (white_iff c).1 (hb c (List.mem_reverse.1 hc))
    have h2' : ∀ c, t.reverse.head? = some c → isSpaceGo c = false := by
      intro c hc
      rw [List.head?_reverse] at hc
      cases h : isSpaceGo c with
      | false => rfl
      | true => exact absurd ((white_iff c).2 h) (h2 c hc)
    unfold trimSpace
    cases ht : t with
    | nil =>
      rw [List.append_nil]
      have : (a ++ b).dropWhile isSpaceGo = [] := by
        have := dropWhile_append_of isSpaceGo (a ++ b) [] (by
          intro c hc
          rcases List.mem_append.1 hc with hc | hc
          · exact ha' c hc
          · exact hb' c (List.mem_reverse.2 hc)) (by simp)
        rwa [List.append_nil] at this
      rw [this]; rfl
    | cons x r =>
      rw [← ht]
      have e1 : (a ++ t ++ b).dropWhile isSpaceGo = t ++ b := by
        rw [List.append_assoc]
        refine dropWhile_append_of isSpaceGo a (t ++ b) ha' ?_
        intro c hc
        cases h : isSpaceGo c with
        | false => rfl
        | true =>
          rw [ht] at hc
          exact absurd ((white_iff c).2 h) (h1 c (by rw [ht]; exact hc))
      rw [e1, List.reverse_append, dropWhile_append_of isSpaceGo b.reverse t.reverse hb' h2', List.reverse_reverse]
  · rintro rfl
    obtain ⟨a, h1, h2, h3⟩ := dropWhile_split isSpaceGo l
    obtain ⟨b, k1, k2, k3⟩ := dropWhile_split isSpaceGo (l.dropWhile isSpaceGo).reverse
    have e : l.dropWhile isSpaceGo = trimSpace l ++ b.reverse := by
      unfold trimSpace
      rw [← List.reverse_append, ← k1, List.reverse_reverse]
    refine ⟨a, b.reverse, by rw [List.append_assoc, ← e]; exact h1, fun c hc => (white_iff c).2 (h2 c hc),
      fun c hc => (white_iff c).2 (k2 c (List.mem_reverse.1 hc)), ?_, ?_⟩
    · intro c hc hw
      have := (white_iff c).1 hw
      have hh : (l.dropWhile isSpaceGo).head? = some c := by
        rw [e, List.head?_append, hc]; rfl
      rw [h3 c hh] at this; cases this
    · intro c hc hw
      have := (white_iff c).1 hw
      unfold trimSpace at hc
      rw [List.getLast?_reverse] at hc
      rw [k3 c hc] at this; cases this

theorem stats_iff (l : Bytes) : Stats l ↔ isProcessed l = true := by
  unfold Stats isProcessed
  rw [List.isPrefixOf_iff_prefix]
  exact Iff.rfl

theorem body_iff (log b : List Bytes) : Body log b ↔ b = withoutStats log := by
  unfold Body withoutStats
  constructor
  · rintro (⟨p, hp, rfl⟩ | ⟨rfl, h⟩)
    · simp [(stats_iff p).1 hp]
    · cases hl : b.getLast? with
      | none => rfl
      | some p =>
        have := h p hl
        rw [stats_iff] at this
        simp [this]
  · rintro rfl
    cases hl : log.getLast? with
    | none => exact Or.inr ⟨rfl, by simp⟩
    | some p =>
      dsimp only
      by_cases hp : isProcessed p = true
      · rw [if_pos hp]
        left
        refine ⟨p, (stats_iff p).2 hp, ?_⟩
        have hne : log ≠ [] := by intro h; rw [h] at hl; cases hl
        have := List.dropLast_concat_getLast hne
        rw [List.getLast?_eq_some_getLast hne] at hl
        injection hl with hl
        rw [hl] at this
        exact this.symm
      · rw [if_neg hp]
        right
        refine ⟨rfl, fun q hq => ?_⟩
        injection hq with hq
        rw [← hq, stats_iff]
        exact hp

theorem needs_iff (l : Bytes) : NeedsContext l ↔ includePreviousLine l = true := by
  unfold NeedsContext includePreviousLine
  rw [Bool.or_eq_true, Bool.or_eq_true, List.isPrefixOf_iff_prefix, List.isPrefixOf_iff_prefix, or_assoc]
  refine or_congr Iff.rfl (or_congr ?_ Iff.rfl)
  cases l with
  | nil => simp
  | cons a r =>
    cases r with
    | nil => simp
    | cons b r =>
      simp only [List.cons.injEq, Bool.and_eq_true, decide_eq_true_eq, BitVec.le_def]
      constructor
      · rintro ⟨d, r', ⟨rfl, rfl, rfl⟩, h1, h2⟩
        exact ⟨⟨rfl, h1⟩, h2⟩
      · rintro ⟨⟨rfl, h1⟩, h2⟩
        exact ⟨b, r, ⟨rfl, rfl, rfl⟩, h1, h2⟩

theorem list_cases (l : List Bytes) : l = [] ∨ (∃ x, l = [x]) ∨ ∃ i p x, l = i ++ [p, x] := by
  rcases List.eq_nil_or_concat l with h | ⟨i, x, h⟩
  · exact Or.inl h
  · rcases List.eq_nil_or_concat i with h' | ⟨j, p, h'⟩
    · right; left; exact ⟨x, by rw [h, h']; rfl⟩
    · right; right; exact ⟨j, p, x, by rw [h, h']; simp⟩

theorem shown_iff (log s : List Bytes) : Shown log s ↔ s = if (withoutStats log).length = 0 then [] else context (withoutStats log) := by
  have c1 : ∀ x : Bytes, context [x] = [x] := by intro x; unfold context; simp
  have c2 : ∀ (i : List Bytes) (p x : Bytes), context (i ++ [p, x]) = if includePreviousLine x = true then [p, x] else [x] := by
    intro i p x
    have hlast : (i ++ [p, x]).getLastD [] = x := by
      rw [show i ++ [p, x] = (i ++ [p]) ++ [x] by simp]; simp [List.getLastD_eq_getLast?]
    unfold context
    dsimp only
    rw [hlast]
    have hl : (i ++ [p, x]).length = i.length + 2 := by simp
    rw [hl]
    by_cases h : includePreviousLine x = true
    · rw [if_pos ⟨by omega, h⟩, if_pos h, show i.length + 2 - 2 = i.length by omega, List.drop_left]
    · rw [if_neg (fun hh => h hh.2), if_neg h, show i.length + 2 - 1 = (i ++ [p]).length by simp,
        show i ++ [p, x] = (i ++ [p]) ++ [x] by simp, List.drop_left]
  constructor
  · intro h
    cases h with
    | none hb => rw [← (body_iff _ _).1 hb]; rfl
    | @one i l hb hc =>
      rw [← (body_iff _ _).1 hb, if_neg (by simp)]
      rcases hc with rfl | hc
      · exact (c1 l).symm
      · rcases List.eq_nil_or_concat i with rfl | ⟨j, p, rfl⟩
        · exact (c1 l).symm
        · have : (j.concat p) ++ [l] = j ++ [p, l] := by simp
          rw [this, c2, if_neg (fun h => hc ((needs_iff l).2 h))]
    | @two i p l hb hc =>
      rw [← (body_iff _ _).1 hb, if_neg (by simp), c2, if_pos ((needs_iff l).1 hc)]
  · rintro rfl
    have hb : Body log (withoutStats log) := (body_iff _ _).2 rfl
    rcases list_cases (withoutStats log) with h | ⟨x, h⟩ | ⟨i, p, x, h⟩
    · rw [h] at hb ⊢; exact .none hb
    · rw [h] at hb ⊢
      rw [if_neg (by simp), c1]
      exact .one (i := []) hb (Or.inl rfl)
    · rw [h] at hb ⊢
      rw [if_neg (by simp), c2]
      by_cases hc : includePreviousLine x = true
      · rw [if_pos hc]; exact .two hb ((needs_iff x).2 hc)
      · rw [if_neg hc]
        refine .one (i := i ++ [p]) ?_ (Or.inr fun h => hc ((needs_iff x).1 h))
        rw [show i ++ [p] ++ [x] = i ++ [p, x] by simp]; exact hb

theorem colons_iff : ∀ (l : List Bytes) (x : Bytes), Colons l x ↔ x = joined l
  | [], x => by
    constructor
    · intro h; cases h; rfl
    · rintro rfl; exact .nil
  | l :: r, x => by
    constructor
    · intro h
      cases h with
      | cons h1 h2 => rw [(trimmed_iff _ _).1 h1, (colons_iff r _).1 h2]; rfl
    · rintro rfl
      exact .cons ((trimmed_iff _ _).2 rfl) ((colons_iff r _).2 rfl)

/-- **C113, the short text**, exactly: the source, the cause, the last line of the log that isn't statistics, with the one before it if that is needed, and how many lines
are missing. -/
theorem error_exact (e : VErr) (t : Bytes) : errorText e = t ↔ Short e t := by
  unfold Short errorText
  simp only [shown_iff, colons_iff, note_exact]
  have hcn : ∀ l : List Bytes, l.length ≠ 0 → context l ≠ [] := by
    intro l hl h
    have := congrArg List.length h
    unfold context at this
    dsimp only at this
    split at this
    · rw [List.length_drop] at this; simp only [List.length_nil] at this; omega
    · rw [List.length_drop] at this; simp only [List.length_nil] at this; omega
  by_cases h : (withoutStats e.log).length = 0
  · simp only [h, if_true]
    constructor
    · rintro rfl
      exact ⟨[], _, [], rfl, rfl, Or.inl ⟨rfl, rfl⟩, by simp [joined, lit_text]⟩
    · rintro ⟨s, c, n, rfl, rfl, h1, rfl⟩
      rcases h1 with ⟨_, rfl⟩ | ⟨h1, _⟩
      · simp [joined, lit_text]
      · exact absurd rfl h1
  · simp only [h, if_false]
    constructor
    · rintro rfl
      exact ⟨_, _, _, rfl, rfl, Or.inr ⟨hcn _ h, rfl⟩, rfl⟩
    · rintro ⟨s, c, n, rfl, rfl, h1, rfl⟩
      rcases h1 with ⟨h1, _⟩ | ⟨_, rfl⟩
      · exact absurd h1 (hcn _ h)
      · rfl
/-! ## Format -/

theorem indented_lines : ∀ l, indented l = Lines l
  | [] => rfl
  | l :: r => by
    rw [indented, indented_lines r]; rfl

theorem wanted_iff (w : Option Nat) (len k : Nat) : Wanted w len k ↔ k = count w len := by
  unfold Wanted count
  cases w with
  | none => simp
  | some n =>
    simp only [reduceCtorEq, false_and, false_or, Option.some.injEq, exists_eq_left']
    split <;> omega

/-- **C113, %s and %v** give the short text. -/
theorem format_short (e : VErr) (plus minus : Bool) (width : Option Nat) :
    format e (text "s") plus minus width = errorText e ∧ format e (text "v") false false none = errorText e := by
  refine ⟨?_, ?_⟩
  · unfold format; rw [if_pos (lit_text _).symm]
  · unfold format; rw [if_neg (by decide), if_pos (lit_text _).symm]; rfl

/-- **C113, misuse.** A width without flag, both flags, and other verbs. -/
theorem format_misuse (e : VErr) (n : Nat) (width : Option Nat) (verb : Bytes) (plus minus : Bool) :
    format e (text "v") false false (some n) = text "%!v(BADWIDTH)" ∧ format e (text "v") true true width = text "%!v(BADFLAG)" ∧
    (verb ≠ text "s" → verb ≠ text "v" → format e verb plus minus width = text "%!" ++ verb ++ text "(BADVERB)") := by
  refine ⟨?_, ?_, ?_⟩
  · unfold format; rw [if_neg (by decide), if_pos (lit_text _).symm]; rfl
  · unfold format; rw [if_neg (by decide), if_pos (lit_text _).symm]; rfl
  · intro h1 h2
    unfold format; rw [if_neg (show ¬ verb = lit "s" from h1), if_neg (show ¬ verb = lit "v" from h2)]; rfl

/-- **C113, %+v**: the first lines of the log, and how many are missing after them. -/
theorem format_first (e : VErr) (width : Option Nat) (t : Bytes) : format e (text "v") true false width = t ↔
    ∃ shown hidden n, e.log = shown ++ hidden ∧ Wanted width e.log.length shown.length ∧ Note (text "\n\t") hidden.length n ∧
      t = e.source ++ text ": " ++ e.cause ++ text ":" ++ Lines shown ++ n := by
  have hf : format e (text "v") true false width = withFlag e false (count width e.log.length) := by
    unfold format; rw [if_neg (by decide), if_pos (lit_text _).symm]; rfl
  rw [hf]
  simp only [wanted_iff, note_exact]
  unfold withFlag
  rw [if_neg (by decide), indented_lines]
  have hle : count width e.log.length ≤ e.log.length := by
    unfold count; cases width with
    | none => exact Nat.le_refl _
    | some n => dsimp only; split <;> omega
  constructor
  · rintro rfl
    refine ⟨e.log.take (count width e.log.length), e.log.drop (count width e.log.length), _, (List.take_append_drop _ _).symm, ?_, rfl, ?_⟩
    · rw [List.length_take]; omega
    · rw [List.length_drop]; rfl
  · rintro ⟨s, h, n, hl, hc, rfl, rfl⟩
    rw [← hc]
    have h1 : e.log.take s.length = s := by rw [hl]; simp
    have h2 : e.log.length - s.length = h.length := by rw [hl]; simp
    rw [h1, h2]; rfl

/-- **C113, %-v**: the last lines of the log, and how many are missing before them. -/
theorem format_last (e : VErr) (width : Option Nat) (t : Bytes) : format e (text "v") false true width = t ↔
    ∃ shown hidden n, e.log = hidden ++ shown ∧ Wanted width e.log.length shown.length ∧ Note (text "\n\t") hidden.length n ∧
      t = e.source ++ text ": " ++ e.cause ++ text ":" ++ n ++ Lines shown := by
  have hf : format e (text "v") false true width = withFlag e true (count width e.log.length) := by
    unfold format; rw [if_neg (by decide), if_pos (lit_text _).symm]; rfl
  rw [hf]
  simp only [wanted_iff, note_exact]
  unfold withFlag
  rw [if_pos (by decide), indented_lines]
  have hle : count width e.log.length ≤ e.log.length := by
    unfold count; cases width with
    | none => exact Nat.le_refl _
    | some n => dsimp only; split <;> omega
  constructor
  · rintro rfl
    refine ⟨e.log.drop (e.log.length - count width e.log.length), e.log.take (e.log.length - count width e.log.length), _, (List.take_append_drop _ _).symm, ?_, rfl, ?_⟩
    · rw [List.length_drop]; omega
    · rw [List.length_take, Nat.min_eq_left (by omega)]; rfl
  · rintro ⟨s, h, n, hl, hc, rfl, rfl⟩
    rw [← hc]
    have h2 : e.log.length - s.length = h.length := by rw [hl]; simp
    have h1 : e.log.drop h.length = s := by rw [hl]; simp
    rw [h2, h1]; rfl

theorem lines_cons (x : Bytes) (r : List Bytes) : Lines (x :: r) = 0x0a#8 :: 0x09#8 :: (x ++ Lines r) := by
  unfold Lines
  rw [List.map_cons, List.flatten_cons]
  show text "\n\t" ++ x ++ _ = _
  have : text "\n\t" = [0x0a#8, 0x09#8] := by decide
  rw [this]; simp

theorem lines_head (r : List Bytes) : Lines r = [] ∨ ∃ t, Lines r = 0x0a#8 :: t := by
  cases r with
  | nil => exact Or.inl rfl
  | cons x r => exact Or.inr ⟨_, lines_cons x r⟩

theorem split_nl : ∀ (a b : Bytes) (s t : Bytes), 0x0a#8 ∉ a → 0x0a#8 ∉ b → (s = [] ∨ ∃ s', s = 0x0a#8 :: s') → (t = [] ∨ ∃ t', t = 0x0a#8 :: t') →
    a ++ s = b ++ t → a = b ∧ s = t
  | [], [], s, t, _, _, _, _, h => ⟨rfl, h⟩
  | [], y :: b, s, t, _, hb, hs, _, h => by
    rcases hs with rfl | ⟨s', rfl⟩
    · cases h
    · injection h with h _
      exact absurd (by rw [h]; simp) hb
  | x :: a, [], s, t, ha, _, _, ht, h => by
    rcases ht with rfl | ⟨t', rfl⟩
    · cases h
    · injection h with h _
      exact absurd (by rw [← h]; simp) ha
  | x :: a, y :: b, s, t, ha, hb, hs, ht, h => by
    rw [List.cons_append, List.cons_append] at h
    injection h with h1 h2
    obtain ⟨e1, e2⟩ := split_nl a b s t (fun h => ha (by simp [h])) (fun h => hb (by simp [h])) hs ht h2
    exact ⟨by rw [h1, e1], e2⟩

theorem lines_injective : ∀ (l r : List Bytes), (∀ x ∈ l, 0x0a#8 ∉ x) → (∀ x ∈ r, 0x0a#8 ∉ x) → Lines l = Lines r → l = r
  | [], [], _, _, _ => rfl
  | [], y :: r, _, _, h => by rw [lines_cons] at h; cases h
  | x :: l, [], _, _, h => by rw [lines_cons] at h; cases h
  | x :: l, y :: r, hl, hr, h => by
    rw [lines_cons, lines_cons] at h
    injection h with _ h
    injection h with _ h
    obtain ⟨e1, e2⟩ := split_nl x y _ _ (hl x (by simp)) (hr y (by simp)) (lines_head l) (lines_head r) h
    rw [e1, lines_injective l r (fun x hx => hl x (by simp [hx])) (fun x hx => hr x (by simp [hx])) e2]

/-- **C113, nothing is lost.** %+v without width shows the whole log: from the text, every line can be told (lines and the head don't contain newlines). -/
theorem format_all (e e' : VErr) (h1 : 0x0a#8 ∉ e.source ++ e.cause) (h2 : 0x0a#8 ∉ e'.source ++ e'.cause) (hl : ∀ x ∈ e.log, 0x0a#8 ∉ x) (hl' : ∀ x ∈ e'.log, 0x0a#8 ∉ x)
    (h : format e (text "v") true false none = format e' (text "v") true false none) :
    e.log = e'.log ∧ e.source ++ text ": " ++ e.cause = e'.source ++ text ": " ++ e'.cause := by
  have key : ∀ e : VErr, format e (text "v") true false none = (e.source ++ text ": " ++ e.cause ++ text ":") ++ Lines e.log := by
    intro e
    rw [format_first]
    exact ⟨e.log, [], [], by simp, Or.inl ⟨rfl, rfl⟩, Or.inl ⟨rfl, rfl⟩, by simp⟩
  have nn : ∀ e : VErr, 0x0a#8 ∉ e.source ++ e.cause → 0x0a#8 ∉ e.source ++ text ": " ++ e.cause ++ text ":" := by
    intro e h
    have t1 : 0x0a#8 ∉ text ": " := by decide
    have t2 : 0x0a#8 ∉ text ":" := by decide
    simp only [List.mem_append, not_or] at h ⊢
    exact ⟨⟨⟨h.1, t1⟩, h.2⟩, t2⟩
  rw [key, key] at h
  obtain ⟨a, b⟩ := split_nl _ _ _ _ (nn e h1) (nn e' h2) (lines_head _) (lines_head _) h
  exact ⟨lines_injective _ _ hl hl' b, List.append_cancel_right a⟩

/-! ## Non-vacuity -/

section Examples

def exErr : VErr := ⟨text "load program", text "permission denied", [text "0: (95) exit", text "R0 !read_ok ", text "processed 1 insns"]⟩

example : errorText exErr = text "load program: permission denied: 0: (95) exit: R0 !read_ok (1 line(s) omitted)" := by
  have : itoa 1 = [0x31#8] := by rw [itoa]; rfl
  have h : errorText exErr = text "load program: permission denied: 0: (95) exit: R0 !read_ok" ++ (text " " ++ lit "(" ++ itoa 1 ++ lit " line(s) omitted)") := by rfl
  rw [h, this]; rfl
example : format exErr (text "v") true false (some 1) = text "load program: permission denied:\n\t0: (95) exit\n\t(2 line(s) omitted)" := by
  have : itoa 2 = [0x32#8] := by rw [itoa]; rfl
  have h : format exErr (text "v") true false (some 1) = text "load program: permission denied:\n\t0: (95) exit" ++ (text "\n\t" ++ lit "(" ++ itoa 2 ++ lit " line(s) omitted)") := by rfl
  rw [h, this]; rfl
example : format exErr (text "v") false true (some 7) = text "load program: permission denied:\n\t0: (95) exit\n\tR0 !read_ok \n\tprocessed 1 insns" := by rfl
example : format exErr (text "d") false true none = text "%!d(BADVERB)" := by decide

end Examples

end Ebpf.VerifierText
