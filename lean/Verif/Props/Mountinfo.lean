import Verif.Model.Mountinfo
import Verif.Spec.Mountinfo
/-! # C48: mount table parsing -/
namespace Ebpf.Mountinfo
open Ebpf.Spec.Mountinfo

/-- **C48, escaping**: decoding inverts the kernel's escaping for every string. -/
theorem unescape_escape (s : Str) : unescape (escape s) = s := by
  fun_induction escape s with
  | case1 => rfl
  | case2 r ih => simp [unescape, ih]
  | case3 r ih => simp [unescape, ih]
  | case4 r ih => simp [unescape, ih]
  | case5 r ih => simp [unescape, ih]
  | case6 c r h1 h2 h3 h4 ih =>
    rw [unescape, ih]
    · rintro _ rfl; exact absurd rfl h4
    · rintro _ rfl; exact absurd rfl h4
    · rintro _ rfl; exact absurd rfl h4
    · rintro _ rfl; exact absurd rfl h4

/-- A non-empty word without white space, different from a lone dash. -/
def Word (w : Str) : Prop := w ≠ [] ∧ (∀ c ∈ w, isSpace c = false) ∧ w ≠ ['-']

/-- Characters the kernel does not escape although Go's `strings.Fields` splits at them. -/
def OtherSpace (c : Char) : Prop := isSpace c = true ∧ c ≠ ' ' ∧ c ≠ '\t' ∧ c ≠ '\n'

theorem escape_nospace (s : Str) (h : ∀ c ∈ s, ¬ OtherSpace c) : ∀ c ∈ escape s, isSpace c = false := by
  fun_induction escape s with
  | case1 => simp
  | case2 r ih =>
    have := ih (fun c hc => h c (List.mem_cons_of_mem _ hc))
    intro c hc
    simp only [List.cons_append, List.nil_append, List.mem_cons] at hc
    rcases hc with rfl | rfl | rfl | rfl | hc
    · decide
    · decide
    · decide
    · decide
    · exact this c hc
  | case3 r ih =>
    have := ih (fun c hc => h c (List.mem_cons_of_mem _ hc))
    intro c hc
    simp only [List.cons_append, List.nil_append, List.mem_cons] at hc
    rcases hc with rfl | rfl | rfl | rfl | hc
    · decide
    · decide
    · decide
    · decide
    · exact this c hc
  | case4 r ih =>
    have := ih (fun c hc => h c (List.mem_cons_of_mem _ hc))
    intro c hc
    simp only [List.cons_append, List.nil_append, List.mem_cons] at hc
    rcases hc with rfl | rfl | rfl | rfl | hc
    · decide
    · decide
    · decide
    · decide
    · exact this c hc
  | case5 r ih =>
    have := ih (fun c hc => h c (List.mem_cons_of_mem _ hc))
    intro c hc
    simp only [List.cons_append, List.nil_append, List.mem_cons] at hc
    rcases hc with rfl | rfl | rfl | rfl | hc
    · decide
    · decide
    · decide
    · decide
    · exact this c hc
  | case6 c r h1 h2 h3 h4 ih =>
    have := ih (fun c hc => h c (List.mem_cons_of_mem _ hc))
    intro d hd
    rcases List.mem_cons.1 hd with rfl | hd
    · have := h d List.mem_cons_self
      unfold OtherSpace at this
      cases hs : isSpace d with
      | false => rfl
      | true => exact absurd ⟨hs, h1, h2, h3⟩ this
    · exact this d hd

theorem escape_ne_nil (s : Str) (h : s ≠ []) : escape s ≠ [] := by
  fun_cases escape s <;> simp_all

theorem escape_ne_dash (s : Str) (h : s ≠ ['-']) : escape s ≠ ['-'] := by
  intro he
  have := congrArg unescape he
  rw [unescape_escape] at this
  exact h (this.trans (by decide))

/-! ### Fields -/

theorem fieldsGo_word (w : Str) (hw : ∀ c ∈ w, isSpace c = false) :
    ∀ (cur r : Str), fieldsGo cur (w ++ r) = fieldsGo (cur ++ w) r := by
  induction w with
  | nil => intro cur r; simp
  | cons a w ih =>
    intro cur r
    rw [List.cons_append, fieldsGo, if_neg (by simp [hw a List.mem_cons_self]),
      ih (fun c hc => hw c (List.mem_cons_of_mem _ hc))]
    simp

theorem fields_join (ws : List Str) (h : ∀ w ∈ ws, Word w) : fields (join ws) = ws := by
  unfold fields
  fun_induction join ws with
  | case1 => rfl
  | case2 w =>
    have hw := h w List.mem_cons_self
    have := fieldsGo_word w hw.2.1 [] []
    rw [List.append_nil] at this
    rw [this, List.nil_append, fieldsGo, if_neg hw.1]
  | case3 w ws hne ih =>
    have hw := h w List.mem_cons_self
    rw [fieldsGo_word w hw.2.1, List.nil_append, fieldsGo, if_pos (by decide), if_neg hw.1,
      ih (fun x hx => h x (List.mem_cons_of_mem _ hx))]

theorem trimSpace_id (w : Str) (h1 : ∀ b, w.head? = some b → isSpace b = false)
    (h2 : ∀ b, w.getLast? = some b → isSpace b = false) : trimSpace w = w := by
  unfold trimSpace
  have e1 : w.dropWhile isSpace = w := by
    cases w with
    | nil => rfl
    | cons a w => rw [List.dropWhile_cons, if_neg]; simp [h1 a rfl]
  rw [e1]
  have e2 : w.reverse.dropWhile isSpace = w.reverse := by
    cases hr : w.reverse with
    | nil => rfl
    | cons a r =>
      rw [List.dropWhile_cons, if_neg]
      have : w.getLast? = some a := by rw [← List.head?_reverse, hr]; rfl
      simp [h2 a this]
  rw [e2, List.reverse_reverse]

theorem join_head (ws : List Str) (h : ∀ w ∈ ws, Word w) :
    ∀ b, (join ws).head? = some b → isSpace b = false := by
  intro b hb
  fun_cases join ws with
  | case1 => simp [join] at hb
  | case2 w => exact (h w List.mem_cons_self).2.1 b (List.mem_of_head? hb)
  | case3 w ws hne =>
    have hw := h w List.mem_cons_self
    cases w with
    | nil => exact absurd rfl hw.1
    | cons a w =>
      have : join ((a :: w) :: ws) = (a :: w) ++ ' ' :: join ws := by rw [join]; exact hne
      rw [this] at hb
      simp at hb; subst hb; exact hw.2.1 _ List.mem_cons_self

theorem join_ne_nil (ws : List Str) (hne : ws ≠ []) (h : ∀ w ∈ ws, Word w) : join ws ≠ [] := by
  fun_cases join ws with
  | case1 => exact absurd rfl hne
  | case2 w => exact (h w List.mem_cons_self).1
  | case3 w ws hne => simp

theorem join_last (ws : List Str) (h : ∀ w ∈ ws, Word w) :
    ∀ b, (join ws).getLast? = some b → isSpace b = false := by
  intro b hb
  fun_induction join ws with
  | case1 => simp at hb
  | case2 w => exact (h w List.mem_cons_self).2.1 b (List.mem_of_getLast? hb)
  | case3 w ws hne ih =>
    have hws : ∀ x ∈ ws, Word x := fun x hx => h x (List.mem_cons_of_mem _ hx)
    apply ih hws
    rw [List.getLast?_append, List.getLast?_cons] at hb
    have hn := join_ne_nil ws (by rintro rfl; exact hne rfl) hws
    cases hl : (join ws).getLast? with
    | none => rw [List.getLast?_eq_none_iff] at hl; exact absurd hl hn
    | some x => rw [hl] at hb; simpa using hb

theorem fields_trim_join (ws : List Str) (h : ∀ w ∈ ws, Word w) : fields (trimSpace (join ws)) = ws := by
  rw [trimSpace_id _ (join_head ws h) (join_last ws h), fields_join ws h]

/-! ### The separator -/

theorem cutDash_word (w : Str) (hw : ∀ c ∈ w, isSpace c = false) (s : Str) :
    cutDash (w ++ s) = (cutDash s).map fun (a, b) => (w ++ a, b) := by
  induction w with
  | nil => simp
  | cons c w ih =>
    have hc : c ≠ ' ' := by rintro rfl; have := hw ' ' List.mem_cons_self; revert this; decide
    rw [List.cons_append, cutDash, if_neg, ih (fun x hx => hw x (List.mem_cons_of_mem _ hx))]
    · simp [Option.map_map, Function.comp_def]
    · simp only [List.isPrefixOf_cons_cons, Bool.and_eq_true, beq_iff_eq]
      exact fun h => hc h.1.symm

theorem notPrefix (w : Str) (hw : Word w) (s : Str) : [' ', '-', ' '].isPrefixOf (' ' :: (w ++ ' ' :: s)) = false := by
  obtain ⟨h1, h2, h3⟩ := hw
  rcases w with _ | ⟨a, _ | ⟨b, w⟩⟩
  · exact absurd rfl h1
  · have : '-' ≠ a := by rintro rfl; exact h3 rfl
    simp [List.isPrefixOf, this]
  · have : ' ' ≠ b := by
      rintro rfl
      have := h2 ' ' (by simp); revert this; decide
    simp [List.isPrefixOf, this]

theorem cutDash_join (ws : List Str) (hne : ws ≠ []) (h : ∀ w ∈ ws, Word w) (s : Str) :
    cutDash (join ws ++ " - ".toList ++ s) = some (join ws, s) := by
  have lit : " - ".toList = [' ', '-', ' '] := by decide
  rw [lit]
  fun_induction join ws with
  | case1 => exact absurd rfl hne
  | case2 w =>
    rw [List.append_assoc, cutDash_word w (h w List.mem_cons_self).2.1]
    simp [cutDash]
  | case3 w ws hne' ih =>
    have hws : ∀ x ∈ ws, Word x := fun x hx => h x (List.mem_cons_of_mem _ hx)
    have hwsne : ws ≠ [] := by rintro rfl; exact hne' rfl
    have ih := ih hwsne hws
    rw [show w ++ ' ' :: join ws ++ [' ', '-', ' '] ++ s = w ++ (' ' :: (join ws ++ [' ', '-', ' '] ++ s)) by simp,
      cutDash_word w (h w List.mem_cons_self).2.1, cutDash, if_neg, ih]
    · simp
    · rw [Bool.not_eq_true]
      fun_cases join ws with
      | case1 => exact absurd rfl hwsne
      | case2 v =>
        have := notPrefix v (hws v List.mem_cons_self) (['-', ' '] ++ s)
        simpa [join] using this
      | case3 v vs hv =>
        have := notPrefix v (hws v List.mem_cons_self) (join vs ++ [' ', '-', ' '] ++ s)
        simpa using this

/-- A mount whose kernel generated fields are plain words and whose paths contain no white space
other than blank, tab and newline. -/
structure Plain (m : Mount) : Prop where
  id : Word m.id
  parent : Word m.parent
  dev : Word m.dev
  options : Word m.options
  opt : ∀ w ∈ m.opt, Word w
  fsType : Word m.fsType
  source : Word m.source
  super : Word m.super
  rootNe : m.root ≠ [] ∧ m.root ≠ ['-']
  mpNe : m.mountPoint ≠ [] ∧ m.mountPoint ≠ ['-']
  root : ∀ c ∈ m.root, ¬ OtherSpace c
  mp : ∀ c ∈ m.mountPoint, ¬ OtherSpace c

theorem word_escape (s : Str) (h : s ≠ [] ∧ s ≠ ['-']) (hs : ∀ c ∈ s, ¬ OtherSpace c) : Word (escape s) :=
  ⟨escape_ne_nil s h.1, escape_nospace s hs, escape_ne_dash s h.2⟩

theorem first_words (m : Mount) (h : Plain m) :
    ∀ w ∈ [m.id, m.parent, m.dev, escape m.root, escape m.mountPoint, m.options] ++ m.opt, Word w := by
  intro w hw
  simp only [List.mem_append, List.mem_cons, List.not_mem_nil, or_false] at hw
  rcases hw with (rfl | rfl | rfl | rfl | rfl | rfl) | hw
  · exact h.id
  · exact h.parent
  · exact h.dev
  · exact word_escape _ h.rootNe h.root
  · exact word_escape _ h.mpNe h.mp
  · exact h.options
  · exact h.opt w hw

/-- **C48 (partial)**: a line printed by the kernel parses to the original mount point, root and
type, for all paths without `\r`, `\v`, `\f` and Unicode white space. Missing: those paths, for which
the parser is wrong (`mountinfo_counterexample`). -/
theorem parseLine_kernel_partial (m : Mount) (h : Plain m) :
    parseLine (line m) = some ⟨m.mountPoint, m.root, m.fsType⟩ := by
  unfold parseLine line
  rw [cutDash_join _ (by simp) (first_words m h)]
  dsimp only
  have hsec : ∀ w ∈ [m.fsType, m.source, m.super], Word w := by
    intro w hw
    simp only [List.mem_cons, List.not_mem_nil, or_false] at hw
    rcases hw with rfl | rfl | rfl
    · exact h.fsType
    · exact h.source
    · exact h.super
  rw [fields_trim_join _ hsec, fields_trim_join _ (first_words m h)]
  simp [unescape_escape]

theorem line_nonl (m : Mount) (h : Plain m) : ∀ c ∈ line m, c ≠ '\n' := by
  have hj : ∀ ws : List Str, (∀ w ∈ ws, Word w) → ∀ c ∈ join ws, c ≠ '\n' := by
    intro ws hws
    have nl : ∀ w, Word w → ∀ c ∈ w, c ≠ '\n' := by
      rintro w hw c hc rfl
      have := hw.2.1 _ hc; revert this; decide
    fun_induction join ws with
    | case1 => simp
    | case2 w => exact nl w (hws w List.mem_cons_self)
    | case3 w ws hne ih =>
      intro c hc
      rcases List.mem_append.1 hc with hc | hc
      · exact nl w (hws w List.mem_cons_self) c hc
      · rcases List.mem_cons.1 hc with rfl | hc
        · decide
        · exact ih (fun x hx => hws x (List.mem_cons_of_mem _ hx)) c hc
  intro c hc
  unfold line at hc
  rw [List.mem_append, List.mem_append] at hc
  rcases hc with (hc | hc) | hc
  · exact hj _ (first_words m h) c hc
  · revert hc; revert c; decide
  · refine hj [m.fsType, m.source, m.super] ?_ c hc
    intro w hw
    simp only [List.mem_cons, List.not_mem_nil, or_false] at hw
    rcases hw with rfl | rfl | rfl
    · exact h.fsType
    · exact h.source
    · exact h.super

theorem splitLines_line (l : Str) (h : ∀ c ∈ l, c ≠ '\n') :
    ∀ (cur r : Str), splitLines cur (l ++ '\n' :: r) = (cur ++ l) :: splitLines [] r := by
  induction l with
  | nil => intro cur r; simp [splitLines]
  | cons a l ih =>
    intro cur r
    rw [List.cons_append, splitLines, if_neg (h a List.mem_cons_self),
      ih (fun c hc => h c (List.mem_cons_of_mem _ hc))]
    simp

/-- **C48 (partial), whole file**: all mounts are reported, in order. -/
theorem parseEntries_kernel_partial (ms : List Mount) (h : ∀ m ∈ ms, Plain m) :
    parseEntries (file ms) = some (ms.map fun m => ⟨m.mountPoint, m.root, m.fsType⟩) := by
  unfold parseEntries
  have e : (splitLines [] (file ms)).filter (· ≠ []) = ms.map line := by
    induction ms with
    | nil => rfl
    | cons m ms ih =>
      have hm := h m List.mem_cons_self
      rw [file, splitLines_line _ (line_nonl m hm), List.filter_cons, List.nil_append, if_pos,
        ih (fun x hx => h x (List.mem_cons_of_mem _ hx)), List.map_cons]
      simp [line]
  rw [e]
  clear e
  induction ms with
  | nil => rfl
  | cons m ms ih =>
    rw [List.map_cons, List.mapM_cons, parseLine_kernel_partial m (h m List.mem_cons_self),
      ih (fun x hx => h x (List.mem_cons_of_mem _ hx))]
    rfl

/-- A bpf mount at the given path. -/
def bpfMount (path : Str) : Mount :=
  ⟨"36".toList, "35".toList, "0:32".toList, "/".toList, path, "rw".toList, ["shared:9".toList],
    "bpf".toList, "bpf".toList, "rw".toList⟩

/-- **C48 is false in general**: a mount point containing a carriage return (which the kernel
does not escape) is cut at that character. -/
theorem mountinfo_counterexample :
    parseLine (line (bpfMount "/a\rb".toList)) = some ⟨"/a".toList, "/".toList, "bpf".toList⟩ := by decide

/-- Non-vacuity: a path with every escaped character. -/
example : Plain (bpfMount "/a b\t\n\\040 - c".toList) := by
  constructor <;> simp [Word, bpfMount, OtherSpace] <;> decide
example : parseLine (line (bpfMount "/a b\t\n\\040 - c".toList)) =
    some ⟨"/a b\t\n\\040 - c".toList, "/".toList, "bpf".toList⟩ := by decide

/-- `FindByFSType` returns every mount point of the type once, in order of first appearance. -/
theorem filterByFSType_spec (fstype : Str) (es : List Entry) : ∀ (acc : List Str), acc.Nodup →
    (filterByFSType fstype es acc).Nodup ∧
    (∀ p, p ∈ filterByFSType fstype es acc ↔ p ∈ acc ∨ ∃ e ∈ es, e.fsType = fstype ∧ e.mountPoint = p) ∧
    acc <+: filterByFSType fstype es acc := by
  induction es with
  | nil => intro acc h; simp [filterByFSType, h]
  | cons e es ih =>
    intro acc h
    unfold filterByFSType
    split
    · next hne =>
      obtain ⟨a, b, c⟩ := ih acc h
      refine ⟨a, fun p => ?_, c⟩
      rw [b]; simp [hne]
    · next hne =>
      have hne : e.fsType = fstype := by simpa using hne
      split
      · next hmem =>
        obtain ⟨a, b, c⟩ := ih acc h
        refine ⟨a, fun p => ?_, c⟩
        rw [b]
        constructor
        · rintro (h | ⟨x, hx, h⟩)
          · exact Or.inl h
          · exact Or.inr ⟨x, List.mem_cons_of_mem _ hx, h⟩
        · rintro (h | ⟨x, hx, h1, h2⟩)
          · exact Or.inl h
          · rcases List.mem_cons.1 hx with rfl | hx
            · exact Or.inl (h2 ▸ hmem)
            · exact Or.inr ⟨x, hx, h1, h2⟩
      · next hmem =>
        obtain ⟨a, b, c⟩ := ih (acc ++ [e.mountPoint]) (by
          rw [List.nodup_append]; refine ⟨h, by simp, ?_⟩
          intro x hx y hy; simp at hy; subst hy; rintro rfl; exact hmem hx)
        refine ⟨a, fun p => ?_, (List.prefix_append _ _).trans c⟩
        rw [b]
        constructor
        · rintro (h | ⟨x, hx, h⟩)
          · rcases List.mem_append.1 h with h | h
            · exact Or.inl h
            · simp at h; subst h; exact Or.inr ⟨e, List.mem_cons_self, hne, rfl⟩
          · exact Or.inr ⟨x, List.mem_cons_of_mem _ hx, h⟩
        · rintro (h | ⟨x, hx, h1, h2⟩)
          · exact Or.inl (List.mem_append_left _ h)
          · rcases List.mem_cons.1 hx with rfl | hx
            · exact Or.inl (by simp [h2])
            · exact Or.inr ⟨x, hx, h1, h2⟩

/-- Fields are separated by what Unicode calls white space. -/
theorem isSpace_iff (c : Char) : isSpace c = true ↔ ∃ r ∈ Spec.Mountinfo.whiteSpace, r.1 ≤ c.toNat ∧ c.toNat ≤ r.2 := by
  unfold isSpace Spec.Mountinfo.whiteSpace
  simp only [Bool.or_eq_true, Bool.and_eq_true, beq_iff_eq, decide_eq_true_eq, List.mem_cons, List.not_mem_nil, or_false, exists_eq_or_imp, exists_eq_left]
  omega

end Ebpf.Mountinfo
