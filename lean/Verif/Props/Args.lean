import Verif.Model.Args
import Verif.Spec.Bindings
/-!
# C104: the words of -cflags, -cc and -strip, and the list of types
-/
namespace Ebpf.Args
open ArgsSpec

theorem quote_chars (q : Char) (h : q = '"' ∨ q = '\'') : q ≠ ' ' ∧ q ≠ '\\' := by
  rcases h with rfl | rfl <;> decide

theorem esc_step (cur : Text) (d c : Char) (s : Text) : splitLoop cur false d ('\\' :: c :: s) = splitLoop (cur ++ [c]) false d s := by
  simp [splitLoop]

theorem bare_step (cur : Text) (c : Char) (s : Text) (h1 : c ≠ ' ') (h2 : c ≠ '\\') (h3 : c ≠ '"') (h4 : c ≠ '\'') :
    splitLoop cur false ' ' (c :: s) = splitLoop (cur ++ [c]) false ' ' s := by
  rw [splitLoop]; simp [h1, h2, h3, h4]

theorem blank_step (cur s : Text) : splitLoop cur false ' ' (' ' :: s) =
    if cur ≠ [] then (splitLoop [] false ' ' s).map (cur :: ·) else splitLoop [] false ' ' s := by
  rw [splitLoop]; simp

theorem open_step (cur s : Text) (q : Char) (h : q = '"' ∨ q = '\'') : splitLoop cur false ' ' (q :: s) = splitLoop cur false q s := by
  rw [splitLoop]
  rcases h with rfl | rfl <;> simp

theorem close_step (cur s : Text) (q : Char) (h : q = '"' ∨ q = '\'') :
    splitLoop cur false q (q :: s) = (splitLoop [] false ' ' s).map (cur :: ·) := by
  rw [splitLoop]
  rcases h with rfl | rfl <;> simp

theorem quoted_step (cur : Text) (q c : Char) (s : Text) (h : q = '"' ∨ q = '\'') (h1 : c ≠ q) (h2 : c ≠ '\\') :
    splitLoop cur false q (c :: s) = splitLoop (cur ++ [c]) false q s := by
  rw [splitLoop]
  have := (quote_chars q h).1
  simp [h1, h2, this]

theorem bare_run (s w cur r : Text) (h : Bare s w) : splitLoop cur false ' ' (s ++ r) = splitLoop (cur ++ w) false ' ' r := by
  induction h generalizing cur with
  | nil => simp
  | char c s t h1 h2 h3 h4 _ ih => rw [List.cons_append, bare_step _ _ _ h1 h2 h3 h4, ih]; simp
  | esc c s t _ ih => rw [List.cons_append, List.cons_append, esc_step, ih]; simp

theorem quoted_run (q : Char) (hq : q = '"' ∨ q = '\'') (s w cur r : Text) (h : Quoted q s w) :
    splitLoop cur false q (s ++ r) = splitLoop (cur ++ w) false q r := by
  induction h generalizing cur with
  | nil => simp
  | char c s t h1 h2 _ ih => rw [List.cons_append, quoted_step _ _ _ _ hq h1 h2, ih]; simp
  | esc c s t _ ih => rw [List.cons_append, List.cons_append, esc_step, ih]; simp

theorem bare_ne (s w : Text) (h : Bare s w) (hs : s ≠ []) : w ≠ [] := by
  cases h with
  | nil => exact absurd rfl hs
  | char => simp
  | esc => simp

theorem words_run (s : Text) (ws : List Text) (h : Words s ws) : splitLoop [] false ' ' s = some ws := by
  induction h with
  | nil => rfl
  | blank s ws _ ih => rw [blank_step]; simpa using ih
  | last s w hs hb =>
    have := bare_run s w [] [] hb
    rw [List.append_nil] at this
    rw [this]
    simp [splitLoop, bare_ne s w hb hs]
  | bare s w r ws hs hb _ ih =>
    rw [bare_run s w [] _ hb, blank_step, ih]
    simp [bare_ne s w hb hs]
  | quoted s w q s' w' r ws hb hq hq' _ ih =>
    rw [List.append_assoc, bare_run s w [] _ hb, List.cons_append, open_step _ _ _ hq, quoted_run q hq s' w' _ _ hq', close_step _ _ _ hq, ih]
    simp

theorem quoted_inv (q : Char) (hq : q = '"' ∨ q = '\'') : ∀ (n : Nat) (s cur : Text) (ws : List Text), s.length ≤ n →
    splitLoop cur false q s = some ws →
    ∃ s' w' r ws', s = s' ++ q :: r ∧ Quoted q s' w' ∧ splitLoop [] false ' ' r = some ws' ∧ ws = (cur ++ w') :: ws' := by
  intro n
  induction n with
  | zero =>
    intro s cur ws hn h
    rw [List.length_eq_zero_iff.mp (Nat.le_zero.mp hn)] at h
    simp [splitLoop, (quote_chars q hq).1] at h
  | succ n ih =>
    intro s cur ws hn h
    cases s with
    | nil => simp [splitLoop, (quote_chars q hq).1] at h
    | cons c s =>
      by_cases h1 : c = '\\'
      · subst h1
        cases s with
        | nil => simp [splitLoop, (quote_chars q hq).1] at h
        | cons d s =>
          rw [esc_step] at h
          obtain ⟨s', w', r, ws', e1, e2, e3, e4⟩ := ih s _ ws (by simp at hn; omega) h
          exact ⟨'\\' :: d :: s', d :: w', r, ws', by rw [e1]; rfl, .esc _ _ _ e2, e3, by rw [e4]; simp⟩
      · by_cases h2 : c = q
        · subst h2
          rw [close_step _ _ _ hq, Option.map_eq_some_iff] at h
          obtain ⟨ws', e1, e2⟩ := h
          exact ⟨[], [], s, ws', rfl, .nil, e1, by rw [← e2]; simp⟩
        · rw [quoted_step _ _ _ _ hq h2 h1] at h
          obtain ⟨s', w', r, ws', e1, e2, e3, e4⟩ := ih s _ ws (by simp at hn; omega) h
          exact ⟨c :: s', c :: w', r, ws', by rw [e1]; rfl, .char _ _ _ h2 h1 e2, e3, by rw [e4]; simp⟩

theorem bare_inv : ∀ (n : Nat) (s cur : Text) (ws : List Text), s.length ≤ n → splitLoop cur false ' ' s = some ws →
    ∃ s' w' r, s = s' ++ r ∧ Bare s' w' ∧
      ((r = [] ∧ ws = if cur ++ w' ≠ [] then [cur ++ w'] else []) ∨
       (∃ r' ws', r = ' ' :: r' ∧ splitLoop [] false ' ' r' = some ws' ∧ ws = if cur ++ w' ≠ [] then (cur ++ w') :: ws' else ws') ∨
       (∃ q s'' w'' r' ws', (q = '"' ∨ q = '\'') ∧ r = q :: s'' ++ q :: r' ∧ Quoted q s'' w'' ∧ splitLoop [] false ' ' r' = some ws' ∧
         ws = (cur ++ w' ++ w'') :: ws')) := by
  intro n
  induction n with
  | zero =>
    intro s cur ws hn h
    have := List.length_eq_zero_iff.mp (Nat.le_zero.mp hn)
    subst this
    simp only [splitLoop] at h
    refine ⟨[], [], [], rfl, .nil, .inl ⟨rfl, ?_⟩⟩
    simpa using h.symm
  | succ n ih =>
    intro s cur ws hn h
    cases s with
    | nil =>
      simp only [splitLoop] at h
      refine ⟨[], [], [], rfl, .nil, .inl ⟨rfl, ?_⟩⟩
      simpa using h.symm
    | cons c s =>
      by_cases h1 : c = '\\'
      · subst h1
        cases s with
        | nil => simp [splitLoop] at h
        | cons d s =>
          rw [esc_step] at h
          obtain ⟨s', w', r, e1, e2, e3⟩ := ih s _ ws (by simp at hn; omega) h
          refine ⟨'\\' :: d :: s', d :: w', r, by rw [e1]; rfl, .esc _ _ _ e2, ?_⟩
          simpa using e3
      · by_cases h2 : c = ' '
        · subst h2
          rw [blank_step] at h
          refine ⟨[], [], ' ' :: s, rfl, .nil, .inr (.inl ?_)⟩
          split at h
          · rename_i hc
            rw [Option.map_eq_some_iff] at h
            obtain ⟨ws', e1, e2⟩ := h
            exact ⟨s, ws', rfl, e1, by simp [hc, e2]⟩
          · rename_i hc
            refine ⟨s, ws, rfl, h, by simp at hc; simp [hc]⟩
        · by_cases h3 : c = '"' ∨ c = '\''
          · rw [open_step _ _ _ h3] at h
            obtain ⟨s', w', r, ws', e1, e2, e3, e4⟩ := quoted_inv c h3 _ s cur ws (Nat.le_refl _) h
            exact ⟨[], [], c :: s, rfl, .nil, .inr (.inr ⟨c, s', w', r, ws', h3, by rw [e1]; rfl, e2, e3, by simpa using e4⟩)⟩
          · have h4 : c ≠ '"' ∧ c ≠ '\'' := ⟨fun e => h3 (.inl e), fun e => h3 (.inr e)⟩
            rw [bare_step _ _ _ h2 h1 h4.1 h4.2] at h
            obtain ⟨s', w', r, e1, e2, e3⟩ := ih s _ ws (by simp at hn; omega) h
            refine ⟨c :: s', c :: w', r, by rw [e1]; rfl, .char _ _ _ h2 h1 h4.1 h4.2 e2, ?_⟩
            simpa using e3

theorem bare_nil (s : Text) (h : Bare s []) : s = [] := by cases h; rfl

theorem run_words : ∀ (n : Nat) (s : Text) (ws : List Text), s.length ≤ n → splitLoop [] false ' ' s = some ws → Words s ws := by
  intro n
  induction n with
  | zero =>
    intro s ws hn h
    rw [List.length_eq_zero_iff.mp (Nat.le_zero.mp hn)] at h ⊢
    cases h
    exact .nil
  | succ n ih =>
    intro s ws hn h
    obtain ⟨s', w', r, e1, e2, e3⟩ := bare_inv _ s [] ws (Nat.le_refl _) h
    simp only [List.nil_append] at e3
    rcases e3 with ⟨rfl, e⟩ | ⟨r', ws', rfl, e4, e⟩ | ⟨q, s'', w'', r', ws', hq, rfl, e4, e5, e⟩
    · rw [List.append_nil] at e1
      subst e1
      split at e
      · rename_i hw
        rw [e]
        exact .last _ _ (fun hs => hw (by subst hs; cases e2; rfl)) e2
      · rename_i hw
        have hw : w' = [] := by simpa using hw
        rw [hw] at e2
        rw [e, bare_nil _ e2]
        exact .nil
    · have hr := ih r' ws' (by rw [e1] at hn; simp at hn; omega) e4
      split at e
      · rename_i hw
        rw [e, e1]
        exact .bare _ _ _ _ (fun hs => hw (by subst hs; cases e2; rfl)) e2 hr
      · rename_i hw
        have hw : w' = [] := by simpa using hw
        rw [hw] at e2
        rw [e, e1, bare_nil _ e2]
        exact .blank _ _ hr
    · have hr := ih r' ws' (by rw [e1] at hn; simp at hn; omega) e5
      rw [e, e1]
      have := Words.quoted _ _ _ _ _ _ _ e2 hq e4 hr
      simpa using this

/-! ## Trimming -/

theorem dropWhile_split (p : Char → Bool) (s : Text) : ∃ a, s = a ++ s.dropWhile p ∧ (∀ c ∈ a, p c = true) ∧
    ∀ c, (s.dropWhile p).head? = some c → p c = false := by
  induction s with
  | nil => exact ⟨[], rfl, by simp, by simp⟩
  | cons c s ih =>
    by_cases h : p c = true
    · rw [List.dropWhile_cons_of_pos h]
      obtain ⟨a, h1, h2, h3⟩ := ih
      exact ⟨c :: a, congrArg (c :: ·) h1, by simpa using ⟨h, h2⟩, h3⟩
    · rw [List.dropWhile_cons_of_neg h]
      exact ⟨[], rfl, by simp, by simpa using h⟩

theorem trim_trimmed (s : Text) : Trimmed s (trimSpace s) := by
  obtain ⟨a, a1, a2, a3⟩ := dropWhile_split isSpace s
  obtain ⟨b, b1, b2, b3⟩ := dropWhile_split isSpace (s.dropWhile isSpace).reverse
  have b1' := congrArg List.reverse b1
  rw [List.reverse_reverse, List.reverse_append] at b1'
  refine ⟨a, b.reverse, ?_, ?_, ?_, ?_⟩
  · unfold trimSpace
    rw [List.append_assoc, ← b1', ← a1]
  · intro c hc
    rcases List.mem_append.mp hc with h | h
    · exact a2 c h
    · exact b2 c (List.mem_reverse.mp h)
  · intro c hc
    refine a3 c ?_
    rw [b1', List.head?_append]
    unfold trimSpace at hc
    rw [hc]; rfl
  · intro c hc
    unfold trimSpace at hc
    rw [List.getLast?_reverse] at hc
    exact b3 c hc

theorem trimmed_unique (s t t' : Text) (h : Trimmed s t) (h' : Trimmed s t') : t = t' := by
  obtain ⟨a, b, e, h1, h2, h3⟩ := h
  obtain ⟨a', b', e', h1', h2', h3'⟩ := h'
  have key : ∀ (a t a' t' : Text), a ++ t = a' ++ t' → (∀ c ∈ a, isSpace c = true) → (∀ c ∈ a', isSpace c = true) →
      (∀ c, t.head? = some c → isSpace c = false) → (∀ c, t'.head? = some c → isSpace c = false) → t = t' := by
    intro a
    induction a with
    | nil =>
      intro t a' t' e _ ha' ht _
      cases a' with
      | nil => simpa using e
      | cons c a' =>
        simp at e
        have := ht c (by rw [e]; rfl)
        rw [ha' c (by simp)] at this
        cases this
    | cons c a ih =>
      intro t a' t' e ha ha' ht ht'
      cases a' with
      | nil =>
        simp at e
        have := ht' c (by rw [← e]; rfl)
        rw [ha c (by simp)] at this
        cases this
      | cons c' a' =>
        simp at e
        exact ih t a' t' e.2 (fun x hx => ha x (by simp [hx])) (fun x hx => ha' x (by simp [hx])) ht ht'
  -- all blank, or not
  have allb : ∀ (a t b a' t' b' : Text), s = a ++ t ++ b → s = a' ++ t' ++ b' → (∀ c ∈ a' ++ b', isSpace c = true) → t = [] →
      (∀ c ∈ a ++ b, isSpace c = true) → (∀ c, t'.head? = some c → isSpace c = false) → t' = [] := by
    intro a t b a' t' b' e e' _ ht hb hh
    cases t' with
    | nil => rfl
    | cons c t' =>
      have hc := hh c rfl
      have : c ∈ s := by rw [e']; simp
      rw [e, ht, List.append_nil] at this
      rw [hb c this] at hc
      cases hc
  by_cases ht : t = []
  · rw [ht, allb a t b a' t' b' e e' h1' ht h1 h2']
  · by_cases ht' : t' = []
    · exact absurd (allb a' t' b' a t b e' e h1 ht' h1' h2) ht
    · have e1 : t ++ b = t' ++ b' := by
        refine key a (t ++ b) a' (t' ++ b') (by rw [← List.append_assoc, ← List.append_assoc, ← e, e']) (fun c hc => h1 c (by simp [hc]))
          (fun c hc => h1' c (by simp [hc])) ?_ ?_
        · intro c hc; cases t with
          | nil => exact absurd rfl ht
          | cons x t => exact h2 c hc
        · intro c hc; cases t' with
          | nil => exact absurd rfl ht'
          | cons x t => exact h2' c hc
      have e2 := congrArg List.reverse e1
      rw [List.reverse_append, List.reverse_append] at e2
      have := key b.reverse t.reverse b'.reverse t'.reverse e2 (fun c hc => h1 c (by simp at hc; simp [hc]))
        (fun c hc => h1' c (by simp at hc; simp [hc])) (by simpa using h3) (by simpa using h3')
      exact List.reverse_inj.mp this

/-- **Splitting into words.** A string is split into words exactly as the grammar says, after white space around it is dropped; it's refused exactly if that isn't
possible. -/
theorem split_iff (s : Text) (ws : List Text) : splitArguments s = some ws ↔ ∃ t, Trimmed s t ∧ Words t ws := by
  unfold splitArguments
  constructor
  · intro h
    exact ⟨_, trim_trimmed s, run_words _ _ _ (Nat.le_refl _) h⟩
  · rintro ⟨t, ht, hw⟩
    rw [trimmed_unique s _ _ (trim_trimmed s) ht]
    exact words_run _ _ hw

theorem getLast_append (a b : Text) (h : b ≠ []) : (a ++ b).getLast? = b.getLast? := by
  cases hb : b.getLast? with
  | none => exact absurd (List.getLast?_eq_none_iff.mp hb) h
  | some c => rw [List.getLast?_append, hb]; rfl

theorem quoted_quote (w : Text) : Quoted '\'' (w.flatMap (fun c => if c = '\'' ∨ c = '\\' then ['\\', c] else [c])) w := by
  induction w with
  | nil => exact .nil
  | cons c w ih =>
    rw [List.flatMap_cons]
    by_cases h : c = '\'' ∨ c = '\\'
    · rw [if_pos h]; exact .esc _ _ _ ih
    · rw [if_neg h]; exact .char _ _ _ (fun e => h (.inl e)) (fun e => h (.inr e)) ih

theorem words_line (ws : List Text) : Words (line ws) ws := by
  induction ws with
  | nil => exact .nil
  | cons w ws ih =>
    have one : ∀ r ws, Words r ws → Words (quote w ++ r) (w :: ws) := by
      intro r ws h
      have := Words.quoted [] [] '\'' _ w r ws .nil (.inr rfl) (quoted_quote w) h
      simpa [quote] using this
    cases ws with
    | nil => have := one [] [] .nil; rwa [List.append_nil] at this
    | cons v ws =>
      rw [line]
      · exact one _ _ (.blank _ _ ih)
      · simp

theorem line_trimmed (ws : List Text) : Trimmed (line ws) (line ws) := by
  refine ⟨[], [], by simp, by simp, ?_, ?_⟩
  · intro c hc
    match ws with
    | [] => cases hc
    | [w] => simp [line, quote] at hc; subst hc; decide
    | w :: v :: ws => simp [line, quote] at hc; subst hc; decide
  · induction ws with
    | nil => intro c hc; cases hc
    | cons w ws ih =>
      intro c hc
      cases ws with
      | nil => simp [line, quote, List.getLast?_append, List.getLast?_cons] at hc; subst hc; decide
      | cons v ws =>
        have hne : line (v :: ws) ≠ [] := by cases ws <;> simp [line, quote]
        have e : line (w :: v :: ws) = (quote w ++ [' ']) ++ line (v :: ws) := by rw [line] <;> simp
        rw [e, getLast_append _ _ hne] at hc
        exact ih c hc

/-- **Any words can be given**: there is a way to quote every list of words. -/
theorem any_words (ws : List Text) : splitArguments (line ws) = some ws :=
  (split_iff _ _).mpr ⟨_, line_trimmed ws, words_line ws⟩

/-- Words without blanks, quotes and backslashes need no quoting. -/
theorem plain_words (w v : Text) (hw : w ≠ []) (hv : v ≠ []) (h : ∀ c ∈ w ++ v, isSpace c = false ∧ c ≠ '\\' ∧ c ≠ '"' ∧ c ≠ '\'') :
    splitArguments (w ++ ' ' :: v) = some [w, v] := by
  have bare : ∀ (x : Text), (∀ c ∈ x, isSpace c = false ∧ c ≠ '\\' ∧ c ≠ '"' ∧ c ≠ '\'') → Bare x x := by
    intro x hx
    induction x with
    | nil => exact .nil
    | cons c x ih =>
      obtain ⟨h1, h2, h3, h4⟩ := hx c (by simp)
      exact .char c _ _ (fun e => by rw [e] at h1; exact absurd h1 (by decide)) h2 h3 h4 (ih (fun d hd => hx d (by simp [hd])))
  refine (split_iff _ _).mpr ⟨w ++ ' ' :: v, ⟨[], [], by simp, by simp, ?_, ?_⟩,
    .bare _ _ _ _ hw (bare w (fun c hc => h c (by simp [hc]))) (.last _ _ hv (bare v (fun c hc => h c (by simp [hc]))))⟩
  · intro c hc
    cases w with
    | nil => exact absurd rfl hw
    | cons a w => cases hc; exact (h c (by simp)).1
  · intro c hc
    have e : w ++ ' ' :: v = (w ++ [' ']) ++ v := by simp
    rw [e, getLast_append _ _ hv] at hc
    exact (h c (by simp [List.mem_of_getLast? hc])).1

/-- **Not as a shell does it**: a closing quote ends the word; a tab doesn't; a blank quoted by a backslash is dropped at the end, and an error is the consequence. -/
theorem not_a_shell : splitArguments "\"a\"b".toList = some ["a".toList, "b".toList] ∧
    splitArguments "a\tb".toList = some ["a\tb".toList] ∧ splitArguments "a\\ ".toList = none := by decide

example : splitArguments " -I\"my dir\" -DX='\"y\"'  a\\ b ".toList =
    some ["-Imy dir".toList, "-DX=\"y\"".toList, "a b".toList] := by decide

/-- **Flags for the compiler** are what follows the first `--`. -/
theorem splitCFlags_iff (l a f : List Text) :
    splitCFlags l = (a, f) ↔ ['-', '-'] ∉ a ∧ (l = a ++ ['-', '-'] :: f ∨ (l = a ∧ f = [])) := by
  induction l generalizing a f with
  | nil =>
    rw [splitCFlags]
    constructor
    · intro h; cases h; simp
    · rintro ⟨_, h | ⟨rfl, rfl⟩⟩
      · cases a <;> cases h
      · rfl
  | cons x l ih =>
    rw [splitCFlags]
    by_cases hx : x = ['-', '-']
    · rw [if_pos hx]
      constructor
      · intro h; cases h; exact ⟨by simp, .inl (by rw [hx]; rfl)⟩
      · rintro ⟨h1, h2 | ⟨h2, _⟩⟩
        · cases a with
          | nil => cases h2; rfl
          | cons y a => cases h2; exact absurd (by rw [← hx]; simp) h1
        · rw [← h2, hx] at h1; exact absurd (by simp) h1
    · rw [if_neg hx]
      constructor
      · intro h
        cases h
        obtain ⟨i1, i2⟩ := (ih _ _).mp (show splitCFlags l = ((splitCFlags l).1, (splitCFlags l).2) from rfl)
        refine ⟨by simp [i1, Ne.symm hx], ?_⟩
        rcases i2 with e | ⟨e, e'⟩
        · exact .inl (congrArg (x :: ·) e)
        · exact .inr ⟨congrArg (x :: ·) e, e'⟩
      · rintro ⟨h1, h2⟩
        cases a with
        | nil =>
          rcases h2 with h2 | ⟨h2, _⟩
          · cases h2; exact absurd rfl hx
          · cases h2
        | cons y a =>
          have e : x = y ∧ (l = a ++ ['-', '-'] :: f ∨ (l = a ∧ f = [])) := by
            rcases h2 with h2 | ⟨h2, h3⟩
            · cases h2; exact ⟨rfl, .inl rfl⟩
            · cases h2; exact ⟨rfl, .inr ⟨rfl, h3⟩⟩
          have := (ih a f).mpr ⟨fun h => h1 (by simp [h]), e.2⟩
          rw [this, e.1]

/-- A name of a type in C. -/
def TypeName (v : Text) : Prop :=
  v ≠ [] ∧ ∀ c ∈ v, ('a' ≤ c ∧ c ≤ 'z') ∨ ('A' ≤ c ∧ c ≤ 'Z') ∨ ('0' ≤ c ∧ c ≤ '9') ∨ c = '_'

theorem validType_iff (v : Text) : validType v = true ↔ TypeName v := by
  simp [validType, TypeName, or_assoc]

theorem findIdx_split {α : Type} (p : α → Bool) (l : List α) :
    ∃ a b, l = a ++ b ∧ l.findIdx p = a.length ∧ (∀ x ∈ a, p x = false) ∧ (∀ y ys, b = y :: ys → p y = true) := by
  induction l with
  | nil => exact ⟨[], [], rfl, rfl, by simp, by simp⟩
  | cons x l ih =>
    by_cases h : p x = true
    · exact ⟨[], x :: l, rfl, by simp [List.findIdx_cons, h], by simp, by intro y ys e; cases e; exact h⟩
    · obtain ⟨a, b, h1, h2, h3, h4⟩ := ih
      have h : p x = false := by simpa using h
      exact ⟨x :: a, b, congrArg (x :: ·) h1, by simp [List.findIdx_cons, h, h2], by simpa using ⟨h, h3⟩, h4⟩

/-- **One -type.** A name is added to the sorted list, which stays sorted; it's refused if it isn't a name or if it was given before. -/
theorem setType_spec (le : Text → Text → Bool) (ho : BindingsSpec.Order le) (ct : List Text) (hs : ct.Pairwise (fun a b => le a b = true)) (v : Text) :
    (TypeName v ∧ v ∉ ct → ∃ r, setType le ct v = some r ∧ r.Perm (v :: ct) ∧ r.Pairwise (fun a b => le a b = true)) ∧
    (¬ TypeName v ∨ v ∈ ct → setType le ct v = none) := by
  obtain ⟨a, b, h1, h2, h3, h4⟩ := findIdx_split (fun n => le v n) ct
  rw [h1] at hs
  obtain ⟨sa, sb, sab⟩ := List.pairwise_append.mp hs
  have hle : ∀ x ∈ a, le x v = true := fun x hx => (ho.total x v).resolve_right (by have := h3 x hx; simpa using this)
  have hget : ct[ct.findIdx (fun n => le v n)]? = b.head? := by
    rw [h2, h1, List.getElem?_append_right (Nat.le_refl _), Nat.sub_self]
    cases b <;> rfl
  have hva : v ∉ a := by
    intro hv
    have := h3 v hv
    rcases ho.total v v with h | h <;> (rw [h] at this; cases this)
  unfold setType
  dsimp only
  rw [hget]
  refine ⟨?_, ?_⟩
  · rintro ⟨hv, hn⟩
    have hv' := (validType_iff v).mpr hv
    rw [hv']
    simp only [Bool.not_true, Bool.false_eq_true, if_false]
    cases b with
    | nil =>
      refine ⟨ct ++ [v], rfl, ?_, ?_⟩
      · exact List.perm_append_comm (l₁ := ct) (l₂ := [v])
      · rw [h1, List.append_nil]
        refine List.pairwise_append.mpr ⟨sa, by simp, ?_⟩
        intro x hx y hy
        cases List.mem_singleton.mp hy
        exact hle x hx
    | cons y b =>
      have hy : y ≠ v := fun e => hn (by rw [h1, ← e]; simp)
      simp only [List.head?_cons]
      rw [if_neg hy, h2, h1, List.take_left, List.drop_left]
      refine ⟨a ++ v :: (y :: b), rfl, List.perm_middle, ?_⟩
      have hvy : le v y = true := h4 y b rfl
      refine List.pairwise_append.mpr ⟨sa, List.pairwise_cons.mpr ⟨?_, sb⟩, ?_⟩
      · intro z hz
        rcases List.mem_cons.mp hz with rfl | hz
        · exact hvy
        · exact ho.trans _ _ _ hvy ((List.pairwise_cons.mp sb).1 z hz)
      · intro x hx z hz
        rcases List.mem_cons.mp hz with rfl | hz
        · exact hle x hx
        · exact sab x hx z hz
  · intro h
    by_cases hv : TypeName v
    · have hv' := (validType_iff v).mpr hv
      rw [hv']
      simp only [Bool.not_true, Bool.false_eq_true, if_false]
      have hn : v ∈ ct := h.resolve_left (fun h => h hv)
      rw [h1] at hn
      have hb : v ∈ b := (List.mem_append.mp hn).resolve_left hva
      cases b with
      | nil => cases hb
      | cons y b =>
        simp only [List.head?_cons]
        rw [if_pos]
        rcases List.mem_cons.mp hb with e | hb
        · exact e.symm
        · exact ho.antisymm _ _ ((List.pairwise_cons.mp sb).1 v hb) (h4 y b rfl)
    · have : validType v = false := by
        cases e : validType v with
        | false => rfl
        | true => exact absurd ((validType_iff v).mp e) hv
      simp [this]

/-- The list after all -type flags. -/
def setTypes (le : Text → Text → Bool) : List Text → List Text → Option (List Text)
  | ct, [] => some ct
  | ct, v :: vs => (setType le ct v).bind (fun ct => setTypes le ct vs)

/-- **The list of types.** The flags are accepted exactly if they are names of types and differ; the result are these names in order. -/
theorem setTypes_spec (le : Text → Text → Bool) (ho : BindingsSpec.Order le) (vs ct : List Text) (hs : ct.Pairwise (fun a b => le a b = true))
    (hn : ct.Nodup) :
    ((∀ v ∈ vs, TypeName v) ∧ (ct ++ vs).Nodup → ∃ r, setTypes le ct vs = some r ∧ r.Perm (ct ++ vs) ∧ r.Pairwise (fun a b => le a b = true)) ∧
    (¬ ((∀ v ∈ vs, TypeName v) ∧ (ct ++ vs).Nodup) → setTypes le ct vs = none) := by
  induction vs generalizing ct with
  | nil =>
    refine ⟨fun _ => ⟨ct, rfl, by simp, hs⟩, fun h => absurd ⟨by simp, by simpa using hn⟩ h⟩
  | cons v vs ih =>
    obtain ⟨s1, s2⟩ := setType_spec le ho ct hs v
    rw [setTypes]
    by_cases hv : TypeName v ∧ v ∉ ct
    · obtain ⟨r, r1, r2, r3⟩ := s1 hv
      rw [r1, Option.bind_some]
      have rn : r.Nodup := r2.nodup_iff.mpr (List.nodup_cons.mpr ⟨hv.2, hn⟩)
      have pm : (r ++ vs).Perm (ct ++ v :: vs) := (r2.append_right vs).trans List.perm_middle.symm
      obtain ⟨i1, i2⟩ := ih r r3 rn
      refine ⟨?_, ?_⟩
      · rintro ⟨h1, h2⟩
        obtain ⟨r', a, b, c⟩ := i1 ⟨fun x hx => h1 x (by simp [hx]), pm.nodup_iff.mpr h2⟩
        exact ⟨r', a, b.trans pm, c⟩
      · intro h
        refine i2 (fun ⟨h1, h2⟩ => h ⟨?_, pm.nodup_iff.mp h2⟩)
        intro x hx
        rcases List.mem_cons.mp hx with rfl | hx
        · exact hv.1
        · exact h1 x hx
    · have hnone := s2 (by
        by_cases h : TypeName v
        · exact .inr (Decidable.byContradiction fun h' => hv ⟨h, h'⟩)
        · exact .inl h)
      rw [hnone]
      refine ⟨?_, fun _ => rfl⟩
      rintro ⟨h1, h2⟩
      refine absurd ⟨h1 v (by simp), ?_⟩ hv
      intro hm
      exact (List.nodup_append.mp h2).2.2 v hm v (by simp) rfl

example : setTypes (fun a b => decide (a ≤ b)) [] ["foo".toList, "bar_1".toList] = some ["bar_1".toList, "foo".toList] ∧
    setTypes (fun a b => decide (a ≤ b)) [] ["foo".toList, "foo".toList] = none := by decide

end Ebpf.Args
