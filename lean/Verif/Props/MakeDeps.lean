import Verif.Model.MakeDeps
/-!
# C103: the dependency file written by bpf2go has the dependencies clang found
-/
namespace Ebpf.MakeDeps
open MakeDepsSpec

/-! ## Paths -/

/-- A directory as a list of proper names. -/
def Proper (dir : List Text) : Prop := ∀ c ∈ dir, c ≠ [] ∧ c ≠ ['.'] ∧ c ≠ ['.', '.'] ∧ '/' ∉ c

theorem components_slash (s : Text) : components ('/' :: s) = [] :: components s := by simp [components]

theorem components_ne (s : Text) : components s ≠ [] := by
  cases s with
  | nil => simp [components]
  | cons c s =>
    unfold components
    split
    · simp_all
    · simp
    · split <;> simp

theorem components_char (c : Char) (s : Text) (h : c ≠ '/') :
    ∃ x xs, components s = x :: xs ∧ components (c :: s) = (c :: x) :: xs := by
  cases hs : components s with
  | nil => exact absurd hs (components_ne s)
  | cons x xs => exact ⟨x, xs, rfl, by rw [components, hs]; exact h⟩

theorem components_append (a b : Text) : components (a ++ '/' :: b) = components a ++ components b := by
  induction a with
  | nil => rw [List.nil_append, components_slash]; rfl
  | cons c a ih =>
    by_cases h : c = '/'
    · subst h; rw [List.cons_append, components_slash, components_slash, ih]; rfl
    · obtain ⟨x, xs, h1, h2⟩ := components_char c a h
      obtain ⟨y, ys, h3, h4⟩ := components_char c (a ++ '/' :: b) h
      rw [List.cons_append, h4, h2]
      rw [ih, h1] at h3
      cases h3
      rfl

theorem components_mem (s : Text) : ∀ x ∈ components s, ∀ c ∈ x, c ∈ s ∧ c ≠ '/' := by
  induction s with
  | nil => intro x hx; simp [components] at hx; simp [hx]
  | cons c s ih =>
    by_cases h : c = '/'
    · subst h
      rw [components_slash]
      intro x hx d hd
      rcases List.mem_cons.mp hx with rfl | hx
      · cases hd
      · exact ⟨List.mem_cons_of_mem _ (ih x hx d hd).1, (ih x hx d hd).2⟩
    · obtain ⟨y, ys, h1, h2⟩ := components_char c s h
      rw [h2]
      intro x hx d hd
      rcases List.mem_cons.mp hx with rfl | hx
      · rcases List.mem_cons.mp hd with rfl | hd
        · exact ⟨by simp, h⟩
        · have := ih y (by rw [h1]; simp) d hd
          exact ⟨List.mem_cons_of_mem _ this.1, this.2⟩
      · have := ih x (by rw [h1]; simp [hx]) d hd
        exact ⟨List.mem_cons_of_mem _ this.1, this.2⟩

theorem components_noslash (s : Text) (h : '/' ∉ s) : components s = [s] := by
  induction s with
  | nil => rfl
  | cons c s ih =>
    obtain ⟨y, ys, h1, h2⟩ := components_char c s (fun e => h (by simp [e]))
    rw [ih (fun e => h (by simp [e]))] at h1
    cases h1
    exact h2

theorem components_join (cs : List Text) (hne : cs ≠ []) (h : ∀ c ∈ cs, '/' ∉ c) : components (joinSlash cs) = cs := by
  induction cs with
  | nil => exact absurd rfl hne
  | cons c cs ih =>
    cases cs with
    | nil => exact components_noslash c (h c (by simp))
    | cons d cs =>
      rw [joinSlash, components_append, components_noslash c (h c (by simp)), ih (by simp) (fun x hx => h x (by simp [hx]))]
      · rfl
      · simp

theorem cleanAbs_eq (p : Text) : cleanAbs p = (components p).foldl step [] := by
  unfold cleanAbs
  congr 1
  funext acc c
  unfold step
  by_cases h1 : c = [] <;> by_cases h2 : c = ['.'] <;> simp [h1, h2]

theorem step_proper (d : List Text) (c : Text) (hd : Proper d) (hc : '/' ∉ c) : Proper (step d c) := by
  unfold step
  split
  · exact hd
  · split
    · exact fun x hx => hd x (List.dropLast_subset _ hx)
    · rename_i h1 h2
      intro x hx
      rcases List.mem_append.mp hx with hx | hx
      · exact hd x hx
      · cases List.mem_singleton.mp hx
        exact ⟨fun e => h1 (.inl e), fun e => h1 (.inr e), h2, hc⟩

theorem fold_proper (cs : List Text) (d : List Text) (hd : Proper d) (hc : ∀ c ∈ cs, '/' ∉ c) : Proper (cs.foldl step d) := by
  induction cs generalizing d with
  | nil => exact hd
  | cons c cs ih => exact ih _ (step_proper d c hd (hc c (by simp))) (fun x hx => hc x (by simp [hx]))

theorem cleanAbs_proper (p : Text) : Proper (cleanAbs p) := by
  rw [cleanAbs_eq]
  exact fold_proper _ _ (by intro x hx; cases hx) (fun c hc hs => (components_mem p c hc _ hs).2 rfl)

theorem fold_mem (cs : List Text) (d : List Text) : ∀ x ∈ cs.foldl step d, x ∈ d ∨ (x ∈ cs ∧ x ≠ []) := by
  induction cs generalizing d with
  | nil => intro x hx; exact .inl hx
  | cons c cs ih =>
    intro x hx
    rcases ih _ x hx with h | h
    · unfold step at h
      split at h
      · exact .inl h
      · split at h
        · exact .inl (List.dropLast_subset _ h)
        · rename_i h1 h2
          rcases List.mem_append.mp h with h | h
          · exact .inl h
          · cases List.mem_singleton.mp h
            exact .inr ⟨by simp, fun e => h1 (.inl e)⟩
    · exact .inr ⟨by simp [h.1], h.2⟩

theorem step_name (d : List Text) (c : Text) (h : c ≠ [] ∧ c ≠ ['.'] ∧ c ≠ ['.', '.']) : step d c = d ++ [c] := by
  simp [step, h.1, h.2.1, h.2.2]

theorem fold_names (cs : List Text) (d : List Text) (h : Proper cs) : cs.foldl step d = d ++ cs := by
  induction cs generalizing d with
  | nil => simp
  | cons c cs ih =>
    have hc := h c (by simp)
    rw [List.foldl_cons, step_name d c ⟨hc.1, hc.2.1, hc.2.2.1⟩, ih _ (fun x hx => h x (by simp [hx]))]
    simp

theorem names_abs (d : List Text) (p : Text) (h : p.head? = some '/') : names d p = cleanAbs p := by
  unfold names
  rw [if_pos h, cleanAbs_eq]

theorem names_render (d cs : List Text) (h : Proper cs) : names d (render cs) = cs := by
  rw [names_abs d _ rfl, cleanAbs_eq, render, components_slash, List.foldl_cons]
  have : step [] [] = [] := rfl
  rw [this]
  cases cs with
  | nil => rfl
  | cons c cs =>
    rw [components_join _ (by simp) (fun x hx => (h x hx).2.2.2), fold_names _ _ h]
    rfl

/-- An absolute path made of a relative one names the same file. -/
theorem names_absPath (d : List Text) (base p : Text) (hb : base.head? = some '/') :
    names d (absPath base p) = names (names [] base) p := by
  unfold absPath
  split
  · rename_i h
    rw [names_abs _ _ h, names_abs _ _ h]
  · rename_i h
    rw [names_render _ _ (cleanAbs_proper _), cleanAbs_eq, components_append, List.foldl_append, names_abs _ _ hb, cleanAbs_eq]
    unfold names
    rw [if_neg h]

theorem absPath_abs (base p : Text) : (absPath base p).head? = some '/' := by
  unfold absPath
  split
  · assumption
  · rfl

theorem fold_up (n : Nat) (x bs : List Text) (h : bs.length = n) : (List.replicate n ['.', '.']).foldl step (x ++ bs) = x := by
  induction n generalizing bs with
  | zero => simp [List.length_eq_zero_iff.mp h]
  | succ n ih =>
    rw [List.replicate_succ, List.foldl_cons]
    have hs : step (x ++ bs) ['.', '.'] = (x ++ bs).dropLast := by simp [step]
    have hne : bs ≠ [] := by intro e; rw [e] at h; cases h
    rw [hs, List.dropLast_append_of_ne_nil hne]
    exact ih _ (by rw [List.length_dropLast, h]; rfl)

theorem rel_walk (bs ts pre : List Text) (ht : Proper ts) : (relComponents bs ts).foldl step (pre ++ bs) = pre ++ ts := by
  induction bs generalizing ts pre with
  | nil => rw [relComponents]; simp only [List.length_nil, List.replicate_zero, List.nil_append, List.append_nil]; exact fold_names _ _ ht
           simp
  | cons b bs ih =>
    cases ts with
    | nil =>
      rw [relComponents]
      · rw [List.append_nil, List.append_nil]; exact fold_up _ _ _ rfl
      · simp
    | cons t ts =>
      rw [relComponents]
      split
      · rename_i h
        subst h
        have := ih ts (pre ++ [b]) (fun x hx => ht x (by simp [hx]))
        simpa using this
      · rw [List.foldl_append, fold_up (bs.length + 1) pre (b :: bs) rfl, fold_names _ _ ht]

theorem rel_mem (bs ts : List Text) : ∀ x ∈ relComponents bs ts, x = ['.', '.'] ∨ x ∈ ts := by
  induction bs generalizing ts with
  | nil => intro x hx; rw [relComponents] at hx; simp at hx; exact .inr hx
           simp
  | cons b bs ih =>
    cases ts with
    | nil =>
      intro x hx
      rw [relComponents] at hx
      · rw [List.append_nil] at hx; exact .inl (List.eq_of_mem_replicate hx)
      · simp
    | cons t ts =>
      intro x hx
      rw [relComponents] at hx
      split at hx
      · rcases ih ts x hx with h | h
        · exact .inl h
        · exact .inr (by simp [h])
      · rcases List.mem_append.mp hx with h | h
        · exact .inl (List.eq_of_mem_replicate h)
        · exact .inr h

theorem join_head (cs : List Text) (h : ∀ c ∈ cs, c ≠ [] ∧ '/' ∉ c) : (joinSlash cs).head? ≠ some '/' := by
  cases cs with
  | nil => simp [joinSlash]
  | cons c cs =>
    obtain ⟨h1, h2⟩ := h c (by simp)
    cases c with
    | nil => exact absurd rfl h1
    | cons a c =>
      have ha : a ≠ '/' := fun e => h2 (by simp [e])
      cases cs with
      | nil => simpa [joinSlash] using ha
      | cons d cs =>
        rw [joinSlash]
        · simpa using ha
        · simp

/-- A path made relative names the same file. -/
theorem names_relPath (base p : Text) (hb : base.head? = some '/') (hp : p.head? = some '/') :
    names (names [] base) (relPath base p) = names [] p := by
  rw [names_abs _ _ hb, names_abs _ _ hp]
  have hpr := cleanAbs_proper p
  have walk := rel_walk (cleanAbs base) (cleanAbs p) [] hpr
  rw [List.nil_append, List.nil_append] at walk
  unfold relPath
  dsimp only
  split
  · rename_i h
    rw [h] at walk
    have : names (cleanAbs base) ['.'] = cleanAbs base := by
      simp [names, components, step]
    rw [this]
    exact walk
  · rename_i h
    have hm : ∀ c ∈ relComponents (cleanAbs base) (cleanAbs p), c ≠ [] ∧ '/' ∉ c := by
      intro c hc
      rcases rel_mem _ _ c hc with rfl | hc
      · exact ⟨by simp, by decide⟩
      · exact ⟨(hpr c hc).1, (hpr c hc).2.2.2⟩
    unfold names
    rw [if_neg (join_head _ hm), components_join _ h (fun c hc => (hm c hc).2)]
    exact walk

/-! ## Names that can be written -/

def PlainChar (c : Char) : Prop :=
  c ≠ ' ' ∧ c ≠ '\t' ∧ c ≠ '\n' ∧ c ≠ '\r' ∧ c ≠ '\x0b' ∧ c ≠ '\x0c' ∧ c ≠ '\\' ∧ c ≠ ':' ∧ c.toNat < 128

theorem plain_iff (n : Text) : Plain n ↔ n ≠ [] ∧ ∀ c ∈ n, PlainChar c := Iff.rfl

theorem clean_chars (p : Text) (h : ∀ c ∈ p, PlainChar c) : ∀ x ∈ cleanAbs p, ∀ c ∈ x, PlainChar c := by
  intro x hx c hc
  rw [cleanAbs_eq] at hx
  rcases fold_mem _ _ x hx with hx | ⟨hx, _⟩
  · cases hx
  · exact h c (components_mem p x hx c hc).1

theorem join_chars (cs : List Text) (h : ∀ x ∈ cs, ∀ c ∈ x, PlainChar c) : ∀ c ∈ joinSlash cs, PlainChar c := by
  induction cs with
  | nil => intro c hc; cases hc
  | cons x cs ih =>
    cases cs with
    | nil => exact h x (by simp)
    | cons y cs =>
      rw [joinSlash]
      · intro c hc
        rcases List.mem_append.mp hc with hc | hc
        · exact h x (by simp) c hc
        · rcases List.mem_cons.mp hc with rfl | hc
          · unfold PlainChar; decide
          · exact ih (fun z hz => h z (by simp [hz])) c hc
      · simp

theorem absPath_chars (base p : Text) (hb : ∀ c ∈ base, PlainChar c) (hp : ∀ c ∈ p, PlainChar c) : ∀ c ∈ absPath base p, PlainChar c := by
  unfold absPath
  split
  · exact hp
  · intro c hc
    rcases List.mem_cons.mp hc with rfl | hc
    · unfold PlainChar; decide
    · refine join_chars _ (clean_chars _ ?_) c hc
      intro d hd
      rcases List.mem_append.mp hd with hd | hd
      · exact hb d hd
      · rcases List.mem_cons.mp hd with rfl | hd
        · unfold PlainChar; decide
        · exact hp d hd

theorem relPath_plain (base p : Text) (hp : ∀ c ∈ p, PlainChar c) : Plain (relPath base p) := by
  rw [plain_iff]
  unfold relPath
  dsimp only
  split
  · exact ⟨by simp, by unfold PlainChar; decide⟩
  · rename_i hne
    have hc : ∀ x ∈ relComponents (cleanAbs base) (cleanAbs p), ∀ c ∈ x, PlainChar c := by
      intro x hx
      rcases rel_mem _ _ x hx with rfl | hx
      · unfold PlainChar; decide
      · exact clean_chars p hp x hx
    refine ⟨?_, join_chars _ hc⟩
    cases hr : relComponents (cleanAbs base) (cleanAbs p) with
    | nil => exact absurd hr hne
    | cons x xs =>
      have hx : x ≠ [] := by
        have : x ∈ relComponents (cleanAbs base) (cleanAbs p) := by rw [hr]; simp
        rcases rel_mem _ _ x this with rfl | h
        · simp
        · exact (cleanAbs_proper p x h).1
      cases xs with
      | nil => exact hx
      | cons y ys => rw [joinSlash] <;> simp [hx]

/-! ## Reading -/

/-- Text with continuation lines, and the line it stands for. -/
inductive Log : Text → Text → Prop
  | nil : Log [] []
  | char (c s t) : c ≠ '\n' → c ≠ '\\' → c ≠ '\r' → Log s t → Log (c :: s) (c :: t)
  | cont (s t) : Log s t → Log ('\\' :: '\n' :: s) t

theorem Log.append {s t s' t' : Text} (h : Log s t) (h' : Log s' t') : Log (s ++ s') (t ++ t') := by
  induction h with
  | nil => exact h'
  | char c s t h1 h2 h3 _ ih => exact .char c _ _ h1 h2 h3 ih
  | cont s t _ ih => exact .cont _ _ ih

theorem log_plain (w : Text) (h : ∀ c ∈ w, PlainChar c) : Log w w := by
  induction w with
  | nil => exact .nil
  | cons c w ih =>
    obtain ⟨_, _, h3, h4, _, _, h7, _⟩ := h c (by simp)
    exact .char c _ _ h3 h7 h4 (ih (fun d hd => h d (by simp [hd])))

theorem log_gap (g : Text) (h : Gap g) : ∃ t, Log g t ∧ (∀ c ∈ t, isSpace c = true) ∧ ((' ' ∈ g ∨ '\t' ∈ g) → t ≠ []) := by
  induction h with
  | nil => exact ⟨[], .nil, by simp, by simp⟩
  | blank s _ ih =>
    obtain ⟨t, h1, h2, _⟩ := ih
    exact ⟨' ' :: t, .char _ _ _ (by decide) (by decide) (by decide) h1, by simpa using ⟨by decide, h2⟩, by simp⟩
  | tab s _ ih =>
    obtain ⟨t, h1, h2, _⟩ := ih
    exact ⟨'\t' :: t, .char _ _ _ (by decide) (by decide) (by decide) h1, by simpa using ⟨by decide, h2⟩, by simp⟩
  | cont s _ ih =>
    obtain ⟨t, h1, h2, h3⟩ := ih
    refine ⟨t, .cont _ _ h1, h2, ?_⟩
    intro h
    refine h3 ?_
    simpa using h

theorem plain_not_space (c : Char) (h : PlainChar c) : isSpace c = false := by
  obtain ⟨h1, h2, h3, h4, h5, h6, _⟩ := h
  simp [isSpace, h1, h2, h3, h4, h5, h6]

theorem fields_gap (t s : Text) (h : ∀ c ∈ t, isSpace c = true) : fields [] (t ++ s) = fields [] s := by
  induction t with
  | nil => rfl
  | cons c t ih =>
    rw [List.cons_append, fields, if_pos (h c (by simp)), if_pos rfl]
    exact ih (fun d hd => h d (by simp [hd]))

theorem fields_word (w cur s : Text) (h : ∀ c ∈ w, isSpace c = false) : fields cur (w ++ s) = fields (cur ++ w) s := by
  induction w generalizing cur with
  | nil => simp
  | cons c w ih =>
    rw [List.cons_append, fields, h c (by simp)]
    simp only [Bool.false_eq_true, if_false]
    rw [ih _ (fun d hd => h d (by simp [hd]))]
    simp

theorem fields_end (cur s : Text) (hc : cur ≠ []) (hs : s = [] ∨ ∃ c r, s = c :: r ∧ isSpace c = true) :
    fields cur s = cur :: fields [] s := by
  rcases hs with rfl | ⟨c, r, rfl, h⟩
  · simp [fields, hc]
  · rw [fields, if_pos h, if_neg hc, fields, if_pos h, if_pos rfl]

theorem log_body (ws : List Text) (b : Text) (h : Body ws b) (hw : ∀ w ∈ ws, Plain w) :
    ∃ s t, b = s ++ ['\n'] ∧ Log s t ∧ fields [] t = ws ∧ (t = [] ∨ ∃ c r, t = c :: r ∧ isSpace c = true) := by
  induction h with
  | done g hg =>
    obtain ⟨t, h1, h2, _⟩ := log_gap g hg
    refine ⟨g, t, rfl, h1, ?_, ?_⟩
    · have := fields_gap t [] h2
      rw [List.append_nil] at this
      rw [this]; rfl
    · cases t with
      | nil => exact .inl rfl
      | cons c t => exact .inr ⟨c, t, rfl, h2 c (by simp)⟩
  | word g w ws s hg _ ih =>
    obtain ⟨s', t', h1, h2, h3, h4⟩ := ih (fun x hx => hw x (by simp [hx]))
    obtain ⟨t, g1, g2, g3⟩ := log_gap g hg.1
    have hp := (plain_iff w).mp (hw w (by simp))
    refine ⟨g ++ w ++ s', t ++ (w ++ t'), by rw [h1]; simp, ?_, ?_, ?_⟩
    · rw [List.append_assoc]
      exact g1.append ((log_plain w hp.2).append h2)
    · rw [fields_gap _ _ g2, fields_word _ _ _ (fun c hc => plain_not_space c (hp.2 c hc)), List.nil_append, fields_end _ _ hp.1 h4, h3]
    · right
      have hne := g3 hg.2
      cases t with
      | nil => exact absurd rfl hne
      | cons c t => exact ⟨c, _, rfl, g2 c (by simp)⟩

/-- What happens at the end of a line. -/
def finish (limit : Nat) (base line rest : Text) : Option (List Rule) :=
  if line = [] then parseLoop limit base [] (scan rest)
  else
    match splitColon line with
    | none => none
    | some (f, ps) => (parseLoop limit base [] (scan rest)).map (fun rs => ⟨absPath base f, (fields [] ps).map (absPath base)⟩ :: rs)

theorem getLast_ne (c : Char) (l : Text) (h : c ∉ l) : l.getLast? ≠ some c := by
  intro e
  exact h (List.mem_of_getLast? e)

theorem log_line (limit : Nat) (base : Text) (s t : Text) (h : Log s t) : ∀ (cur line rest : Text), '\\' ∉ cur → '\r' ∉ cur →
    line.length + cur.length + s.length ≤ limit →
    parseLoop limit base line ((splitLines cur (s ++ '\n' :: rest)).map dropCR) = finish limit base (line ++ cur ++ t) rest := by
  induction h with
  | nil =>
    intro cur line rest h1 h2 hl
    rw [List.nil_append, splitLines, if_pos rfl, List.map_cons, dropCR, if_neg (getLast_ne _ _ h2), parseLoop,
      if_neg (by simp at hl; omega), if_neg (getLast_ne _ _ h1), List.append_nil]
    rfl
  | char c s t hc1 hc2 hc3 _ ih =>
    intro cur line rest h1 h2 hl
    rw [List.cons_append, splitLines, if_neg hc1]
    rw [ih (cur ++ [c]) line rest (by simp [h1, hc2.symm]) (by simp [h2, hc3.symm]) (by simp at hl ⊢; omega)]
    simp
  | cont s t _ ih =>
    intro cur line rest h1 h2 hl
    have e : splitLines cur ('\\' :: '\n' :: s ++ '\n' :: rest) = (cur ++ ['\\']) :: splitLines [] (s ++ '\n' :: rest) := by
      simp [splitLines]
    have d : dropCR (cur ++ ['\\']) = cur ++ ['\\'] := by
      rw [dropCR, if_neg]; simp
    rw [e, List.map_cons, d, parseLoop, if_neg (by simp at hl ⊢; omega), if_pos (by simp)]
    rw [List.dropLast_concat, ih [] (line ++ cur) rest (by simp) (by simp) (by simp at hl ⊢; omega)]
    simp

theorem splitColon_plain (f t : Text) (h : ∀ c ∈ f, c ≠ ':') : splitColon (f ++ ':' :: t) = some (f, t) := by
  induction f with
  | nil => simp [splitColon]
  | cons c f ih =>
    rw [List.cons_append, splitColon, if_neg (h c (by simp)), ih (fun d hd => h d (by simp [hd]))]
    rfl

/-- Rules as they are read: with absolute paths. -/
def absRule (base : Text) (r : Rule) : Rule := ⟨absPath base r.file, r.prereqs.map (absPath base)⟩

theorem parse_file (limit : Nat) (base : Text) (rs : List Rule) (text : Text) (h : File rs text)
    (hp : ∀ r ∈ rs, Plain r.file ∧ ∀ w ∈ r.prereqs, Plain w) (hl : text.length ≤ limit) :
    parseLoop limit base [] (scan text) = some (rs.map (absRule base)) := by
  induction h with
  | nil => rfl
  | empty rs s _ ih =>
    have e := log_line limit base [] [] .nil [] [] s (by simp) (by simp) (by simp)
    rw [List.nil_append] at e
    unfold scan
    rw [e]
    show finish limit base [] s = _
    rw [finish, if_pos rfl]
    exact ih hp (by simp at hl; omega)
  | rule r rs b s hb _ ih =>
    obtain ⟨p1, p2⟩ := hp r (by simp)
    have pf := (plain_iff _).mp p1
    obtain ⟨s', t', h1, h2, h3, _⟩ := log_body _ _ hb p2
    have hlog : Log (r.file ++ ':' :: s') (r.file ++ ':' :: t') :=
      (log_plain _ pf.2).append (.char _ _ _ (by decide) (by decide) (by decide) h2)
    have e := log_line limit base _ _ hlog [] [] s (by simp) (by simp) (by rw [h1] at hl; simp at hl ⊢; omega)
    have et : r.file ++ ':' :: b ++ s = r.file ++ ':' :: s' ++ '\n' :: s := by rw [h1]; simp
    unfold scan
    rw [et, e]
    show finish limit base (r.file ++ ':' :: t') s = _
    have hne : r.file ++ ':' :: t' ≠ [] := by simp
    rw [finish, if_neg hne, splitColon_plain _ _ (fun c hc => (pf.2 c hc).2.2.2.2.2.2.2.1)]
    dsimp only
    rw [ih (fun r hr => hp r (by simp [hr])) (by rw [et] at hl; simp at hl; omega), h3]
    rfl

/-! ## Writing -/

theorem body_join (ps : List Text) (hne : ps ≠ []) : Body ps (" \\\n ".toList ++ joinLines ps ++ ['\n']) := by
  have g : RealGap (" \\\n ".toList) := ⟨.blank _ (.cont _ (.blank _ .nil)), by decide⟩
  induction ps with
  | nil => exact absurd rfl hne
  | cons p ps ih =>
    cases ps with
    | nil =>
      have := Body.word _ p [] _ g (Body.done [] .nil)
      simpa [joinLines] using this
    | cons q ps =>
      have := Body.word _ p _ _ g (ih (by simp))
      rw [joinLines]
      · simpa using this
      · simp

theorem file_adjust (base : Text) (rs : List Rule) :
    File (rs.map (fun r => ⟨relPath base r.file, r.prereqs.map (relPath base)⟩)) (adjustDependencies base rs) := by
  induction rs with
  | nil => exact .nil
  | cons r rs ih =>
    rw [adjustDependencies, List.map_cons]
    have rest := File.empty _ _ ih
    split
    · rename_i h
      have hb : Body (r.prereqs.map (relPath base)) ['\n'] := by rw [h]; exact Body.done [] .nil
      have := File.rule ⟨relPath base r.file, r.prereqs.map (relPath base)⟩ _ _ _ hb rest
      simpa using this
    · rename_i h
      have hb := body_join (r.prereqs.map (relPath base)) (by simpa using h)
      have := File.rule ⟨relPath base r.file, r.prereqs.map (relPath base)⟩ _ _ _ hb rest
      simpa using this

/-- **The dependency file.** For every file of dependencies written by the compiler, with any layout, in which names need no quoting: the file written for make has the same rules in the
same order. Read by make in its base directory each path names the file which the path of the compiler names in the compiler's working directory; only the target
of the first rule is the Go file instead. -/
theorem depFile_rules_partial (cwd makeBase goFile text : Text) (r : Rule) (rs : List Rule) (h : File (r :: rs) text)
    (hp : ∀ x ∈ r :: rs, Plain x.file ∧ ∀ w ∈ x.prereqs, Plain w) (hl : text.length ≤ 1024 * 1024)
    (hc : cwd.head? = some '/' ∧ Plain cwd) (hb : makeBase.head? = some '/') (hg : goFile.head? = some '/' ∧ Plain goFile) :
    ∃ out rs', depFile cwd makeBase goFile text = some out ∧ File rs' out ∧ (∀ x ∈ rs', Plain x.file ∧ ∀ w ∈ x.prereqs, Plain w) ∧
      rs'.map (says (names [] makeBase)) =
        (names [] goFile, r.prereqs.map (names (names [] cwd))) :: rs.map (says (names [] cwd)) := by
  have hparse := parse_file (1024 * 1024) cwd (r :: rs) text h hp hl
  have hd : depFile cwd makeBase goFile text =
      some (adjustDependencies makeBase ({ absRule cwd r with file := goFile } :: rs.map (absRule cwd))) := by
    unfold depFile parseDependencies
    rw [hparse]
    rfl
  refine ⟨_, _, hd, file_adjust makeBase _, ?_, ?_⟩
  · have key : ∀ x ∈ r :: rs, ∀ w ∈ (absRule cwd x).prereqs, Plain (relPath makeBase w) := by
      intro x hx w hw
      obtain ⟨w', hw', rfl⟩ := List.mem_map.mp hw
      exact relPath_plain _ _ (absPath_chars _ _ hc.2.2 ((hp x hx).2 w' hw').2)
    intro x hx
    obtain ⟨y, hy, rfl⟩ := List.mem_map.mp hx
    rcases List.mem_cons.mp hy with rfl | hy
    · refine ⟨relPath_plain _ _ hg.2.2, ?_⟩
      intro w hw
      obtain ⟨w', hw', rfl⟩ := List.mem_map.mp hw
      exact key r (by simp) w' hw'
    · obtain ⟨z, hz, rfl⟩ := List.mem_map.mp hy
      refine ⟨relPath_plain _ _ (absPath_chars _ _ hc.2.2 (hp z (by simp [hz])).1.2), ?_⟩
      intro w hw
      obtain ⟨w', hw', rfl⟩ := List.mem_map.mp hw
      exact key z (by simp [hz]) w' hw'
  · have one : ∀ p, names (names [] makeBase) (relPath makeBase (absPath cwd p)) = names (names [] cwd) p := by
      intro p
      rw [names_relPath _ _ hb (absPath_abs _ _), names_absPath _ _ _ hc.1]
    have many : ∀ (ps : List Text), ((ps.map (absPath cwd)).map (relPath makeBase)).map (names (names [] makeBase)) =
        ps.map (names (names [] cwd)) := by
      intro ps
      rw [List.map_map, List.map_map]
      exact List.map_congr_left (fun p _ => one p)
    rw [List.map_map, List.map_cons, List.map_map]
    congr 1
    · simp only [Function.comp, says]
      rw [names_relPath _ _ hb hg.1]
      exact Prod.ext rfl (many r.prereqs)
    · refine List.map_congr_left (fun x _ => ?_)
      simp only [Function.comp, says, absRule]
      rw [one]
      exact Prod.ext rfl (many x.prereqs)

/-- The hypotheses are met by a file as clang writes it. -/
example : ∃ t, File [⟨"a.o".toList, ["a.c".toList, "../b.h".toList]⟩, ⟨"../b.h".toList, []⟩] t ∧ t = "a.o: a.c \\\n  ../b.h\n\n../b.h:\n".toList :=
  ⟨_, .rule _ _ _ _ (.word " ".toList _ _ _ ⟨.blank _ .nil, by decide⟩ (.word " \\\n  ".toList _ _ _
    ⟨.blank _ (.cont _ (.blank _ (.blank _ .nil))), by decide⟩ (.done [] .nil))) (.empty _ _ (.rule _ _ _ _ (.done [] .nil) .nil)), by decide⟩

/-- and what becomes of it. -/
example : depFile "/src/x".toList "/src".toList "/src/x/a.go".toList "a.o: a.c \\\n  ../b.h\n\n../b.h:\n".toList =
    some "x/a.go: \\\n x/a.c \\\n b.h\n\nb.h:\n\n".toList := by decide

/-- **Nothing found is an error**: the compiler always writes a rule. -/
theorem no_rules (cwd makeBase goFile text : Text) (h : File [] text) (hl : text.length ≤ 1024 * 1024) :
    depFile cwd makeBase goFile text = none := by
  unfold depFile parseDependencies
  rw [parse_file _ _ _ _ h (by simp) hl]
  rfl

/-- **bpf2go doesn't panic**: what was read has a first rule, whatever the text. -/
theorem first_rule_exists (base text : Text) : parseDependencies base text ≠ some [] := by
  unfold parseDependencies
  split
  · simp
  · rename_i h; exact h

/-- **Directories with blanks.** If the working directory has a blank in its name the file for make names other files. -/
theorem blank_in_directory :
    depFile "/my dir".toList "/".toList "/g".toList "x: y\n".toList = some "g: \\\n my dir/y\n\n".toList ∧
    File [⟨"g".toList, ["my".toList, "dir/y".toList]⟩] "g: \\\n my dir/y\n\n".toList :=
  ⟨by decide, .rule ⟨"g".toList, ["my".toList, "dir/y".toList]⟩ [] _ ['\n']
    (.word " \\\n ".toList _ _ _ ⟨.blank _ (.cont _ (.blank _ .nil)), by decide⟩ (.word " ".toList _ _ _ ⟨.blank _ .nil, by decide⟩ (.done [] .nil)))
    (.empty _ _ .nil)⟩

/-- **Continuation lines**: one that isn't preceded or followed by a blank glues names, where make sees two; a last one makes the rule disappear. -/
theorem continuation_lines : parseDependencies "/".toList "a: b\\\nc\n".toList = some [⟨"/a".toList, ["/bc".toList]⟩] ∧
    parseDependencies "/".toList "a: b\nc: d \\\n".toList = some [⟨"/a".toList, ["/b".toList]⟩] := by decide

theorem splitLines_end (s cur : Text) (hs : s.getLast? ≠ some '\n') (hne : s ≠ [] ∨ cur ≠ []) :
    splitLines cur (s ++ ['\n']) = splitLines cur s := by
  induction s generalizing cur with
  | nil =>
    have hc : cur ≠ [] := hne.resolve_left (fun h => h rfl)
    simp [splitLines, hc]
  | cons c s ih =>
    rw [List.cons_append, splitLines, splitLines]
    by_cases hc : c = '\n'
    · have hs0 : s ≠ [] := by intro e; rw [e, hc] at hs; exact hs rfl
      rw [if_pos hc, if_pos hc, ih [] (by
        cases s with
        | nil => exact absurd rfl hs0
        | cons d s => simpa [List.getLast?_cons] using hs) (.inl hs0)]
    · rw [if_neg hc, if_neg hc]
      cases s with
      | nil => simp [splitLines]
      | cons d s => exact ih _ (by simpa [List.getLast?_cons] using hs) (.inl (by simp))

/-- **The newline at the end of the file may be missing.** -/
theorem last_newline_optional (cwd makeBase goFile s : Text) (hne : s ≠ []) (hs : s.getLast? ≠ some '\n') :
    depFile cwd makeBase goFile s = depFile cwd makeBase goFile (s ++ ['\n']) := by
  unfold depFile parseDependencies scan
  rw [splitLines_end s [] hs (.inl hne)]

/-- A text with the line ends of Windows. -/
def crlf : Text → Text
  | [] => []
  | c :: s => if c = '\n' then '\r' :: '\n' :: crlf s else c :: crlf s

theorem scan_crlf (s cur : Text) (hs : '\r' ∉ s) (hc : '\r' ∉ cur) :
    (splitLines cur (crlf s)).map dropCR = (splitLines cur s).map dropCR := by
  induction s generalizing cur with
  | nil => rfl
  | cons c s ih =>
    rw [crlf, splitLines]
    have hs' : '\r' ∉ s := fun h => hs (by simp [h])
    by_cases h : c = '\n'
    · have d1 : dropCR (cur ++ ['\r']) = cur := by simp [dropCR]
      have d2 : dropCR cur = cur := by rw [dropCR, if_neg (getLast_ne _ _ hc)]
      have e : splitLines cur ('\r' :: '\n' :: crlf s) = (cur ++ ['\r']) :: splitLines [] (crlf s) := by simp [splitLines]
      rw [if_pos h, if_pos h, e, List.map_cons, List.map_cons, d1, d2, ih [] hs' (by simp)]
    · rw [if_neg h, if_neg h, splitLines, if_neg h]
      exact ih _ hs' (by
        intro hm
        rcases List.mem_append.mp hm with hm | hm
        · exact hc hm
        · exact hs (by rw [List.mem_singleton.mp hm]; simp))

/-- **The line ends of Windows make no difference.** -/
theorem line_ends (cwd makeBase goFile s : Text) (hs : '\r' ∉ s) : depFile cwd makeBase goFile (crlf s) = depFile cwd makeBase goFile s := by
  unfold depFile parseDependencies scan
  rw [scan_crlf s [] hs (by simp)]

end Ebpf.MakeDeps
