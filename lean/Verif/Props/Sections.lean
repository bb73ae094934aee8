import Verif.Spec.Sections
import Verif.Model.Sections
/-!
# C70: section names select the program type of the most specific pattern
-/
namespace Ebpf.Sections
open Ebpf.SectionsSpec

theorem hasPrefix_iff : ∀ (s p : List Char), hasPrefix s p = true ↔ ∃ r, s = p ++ r
  | s, [] => by simp [hasPrefix]
  | [], q :: p => by simp [hasPrefix]
  | c :: s, q :: p => by
    unfold hasPrefix
    rw [Bool.and_eq_true, hasPrefix_iff s p]
    constructor
    · rintro ⟨h, r, rfl⟩
      have : c = q := by simpa using h
      exact ⟨r, by rw [this]; rfl⟩
    · rintro ⟨r, h⟩
      simp only [List.cons_append, List.cons.injEq] at h
      exact ⟨by simp [h.1], r, h.2⟩

theorem endsWith_iff (c : Char) : ∀ (p : List Char), endsWith c p = true ↔ ∃ b, p = b ++ [c]
  | [] => by simp [endsWith]
  | [x] => by
    simp only [endsWith, beq_iff_eq]
    constructor
    · rintro rfl; exact ⟨[], rfl⟩
    · rintro ⟨b, h⟩
      cases b with
      | nil => simpa using h
      | cons _ b => cases b <;> simp at h
  | x :: y :: r => by
    unfold endsWith
    rw [endsWith_iff c (y :: r)]
    constructor
    · rintro ⟨b, h⟩; exact ⟨x :: b, by rw [h]; rfl⟩
    · rintro ⟨b, h⟩
      cases b with
      | nil => simp at h
      | cons z b =>
        simp only [List.cons_append, List.cons.injEq] at h
        exact ⟨b, h.2⟩

/-- No slash and no plus in it. -/
def Clean (b : List Char) : Prop := '/' ∉ b ∧ '+' ∉ b

theorem cut_clean : ∀ (b : List Char), '/' ∉ b → cut b = (b, [], false)
  | [], _ => rfl
  | c :: b, h => by
    simp only [List.mem_cons, not_or] at h
    unfold cut
    rw [if_neg (fun hh => h.1 hh.symm), cut_clean b h.2]

theorem cut_slash : ∀ (b x : List Char), '/' ∉ b → cut (b ++ '/' :: x) = (b, x, true)
  | [], x, _ => by simp [cut]
  | c :: b, x, h => by
    simp only [List.mem_cons, not_or] at h
    show cut (c :: (b ++ '/' :: x)) = _
    unfold cut
    rw [if_neg (fun hh => h.1 hh.symm), cut_slash b x h.2]

theorem cut_join : ∀ (s : List Char), (cut s).2.2 = true ∧ s = (cut s).1 ++ '/' :: (cut s).2.1 ∨ (cut s).2.2 = false ∧ s = (cut s).1 ∧ (cut s).2.1 = []
  | [] => Or.inr ⟨rfl, rfl, rfl⟩
  | c :: s => by
    by_cases h : c = '/'
    · subst h
      exact Or.inl (by simp [cut])
    · have : cut (c :: s) = (c :: (cut s).1, (cut s).2.1, (cut s).2.2) := by
        rw [cut, if_neg h]
      rw [this]
      rcases cut_join s with ⟨a, b⟩ | ⟨a, b, d⟩
      · exact Or.inl ⟨a, by rw [List.cons_append, ← b]⟩
      · exact Or.inr ⟨a, by rw [← b], d⟩

theorem trimRight_clean : ∀ (b : List Char), Clean b → trimRight b = b
  | [], _ => rfl
  | c :: b, h => by
    have hb : Clean b := ⟨fun hh => h.1 (List.mem_cons_of_mem _ hh), fun hh => h.2 (List.mem_cons_of_mem _ hh)⟩
    have h1 : c ≠ '/' := fun hh => h.1 (by rw [hh]; exact List.mem_cons_self)
    have h2 : c ≠ '+' := fun hh => h.2 (by rw [hh]; exact List.mem_cons_self)
    unfold trimRight
    rw [trimRight_clean b hb]
    cases b with
    | nil => rw [if_neg (by rintro (h | h) <;> contradiction)]
    | cons _ _ => rfl

theorem trimRight_plus : ∀ (b : List Char), Clean b → trimRight (b ++ ['+']) = b
  | [], _ => by decide
  | c :: b, h => by
    have hb : Clean b := ⟨fun hh => h.1 (List.mem_cons_of_mem _ hh), fun hh => h.2 (List.mem_cons_of_mem _ hh)⟩
    have h1 : c ≠ '/' := fun hh => h.1 (by rw [hh]; exact List.mem_cons_self)
    have h2 : c ≠ '+' := fun hh => h.2 (by rw [hh]; exact List.mem_cons_self)
    show trimRight (c :: (b ++ ['+'])) = _
    unfold trimRight
    rw [trimRight_plus b hb]
    cases b with
    | nil => simp only [if_neg (show ¬ (c = '+' ∨ c = '/') from by rintro (h | h) <;> contradiction)]
    | cons _ _ => rfl

/-- What the patterns of the table look like: `b+` where `b` has no slash, or no special character at the end. -/
def PatternOK (p : List Char) : Bool :=
  !endsWith '/' p && (!endsWith '+' p || (!p.dropLast.contains '/' && !p.dropLast.contains '+'))

theorem matchSectionName_iff (name p : List Char) (hp : PatternOK p = true) (x : List Char) :
    matchSectionName name p = some x ↔ Matches p name x := by
  unfold PatternOK at hp
  simp only [Bool.and_eq_true, Bool.not_eq_true', Bool.or_eq_true] at hp
  obtain ⟨hs, hplus⟩ := hp
  unfold matchSectionName
  simp only
  rw [if_neg (by rw [hs]; decide)]
  by_cases h : endsWith '+' p = true
  · rw [if_pos h]
    obtain ⟨b, rfl⟩ := (endsWith_iff '+' p).1 h
    have hc : Clean b := by
      rcases hplus with hh | hh
      · rw [h] at hh; cases hh
      · simp only [List.dropLast_concat] at hh
        exact ⟨fun hm => by simp [hm] at hh, fun hm => by simp [hm] at hh⟩
    rw [trimRight_plus b hc]
    constructor
    · intro hh
      split at hh
      · rename_i hb
        cases hh
        rcases cut_join name with ⟨_, j⟩ | ⟨_, j1, j2⟩
        · rw [hb] at j
          rw [j, cut_slash b _ hc.1]
          exact .extra
        · rw [j2]
          rw [j1, hb]
          exact .exact
      · cases hh
    · intro hm
      generalize hpp : b ++ ['+'] = pat at hm
      cases hm with
      | @exact b' =>
        have : b = name := by simpa using List.append_cancel_right hpp
        subst this
        rw [cut_clean b hc.1]
        simp
      | @extra b' x =>
        have : b = b' := by simpa using List.append_cancel_right hpp
        subst this
        rw [cut_slash b x hc.1]
        simp
      | plain hn => exact absurd hpp.symm (hn b)
  · rw [if_neg h]
    have hn : ∀ b, p ≠ b ++ ['+'] := fun b hb => h ((endsWith_iff '+' p).2 ⟨b, hb⟩)
    constructor
    · intro hh
      split at hh
      · rename_i hpre
        cases hh
        obtain ⟨r, rfl⟩ := (hasPrefix_iff name p).1 hpre
        exact .plain hn
      · cases hh
    · intro hm
      cases hm with
      | exact => exact absurd rfl (hn _)
      | extra => exact absurd rfl (hn _)
      | @plain _ r _ => rw [if_pos ((hasPrefix_iff _ p).2 ⟨r, rfl⟩)]

/-- What has to hold for an earlier and a later pattern, so that the first match is the most specific. -/
def ordered (p q : List Char) : Bool :=
  match endsWith '+' p, endsWith '+' q with
  | true, true => p != q
  | true, false => !hasPrefix p.dropLast q && !hasPrefix q (p.dropLast ++ ['/'])
  | false, true => !hasPrefix q.dropLast p && !hasPrefix p (q.dropLast ++ ['/'])
  | false, false => !hasPrefix q p

theorem prefix_append {p b y : List Char} (h : ∃ r, b ++ y = p ++ r) : (∃ r, b = p ++ r) ∨ (∃ r, r ≠ [] ∧ p = b ++ r ∧ ∃ z, y = r ++ z) := by
  obtain ⟨r, h⟩ := h
  rcases List.append_eq_append_iff.1 h with ⟨a, h1, h2⟩ | ⟨a, h1, h2⟩
  · cases a with
    | nil => exact Or.inl ⟨[], by rw [h1]; simp⟩
    | cons a as => exact Or.inr ⟨a :: as, by simp, h1, r, h2⟩
  · exact Or.inl ⟨a, h1⟩

theorem plus_plain {b q n x y : List Char} (h1 : Matches (b ++ ['+']) n x) (h2 : Matches q n y) (hq : ∀ c, q ≠ c ++ ['+'])
    (h3 : ¬ ∃ r, b = q ++ r) (h4 : ¬ ∃ r, q = b ++ ['/'] ++ r) : False := by
  cases h2 with
  | exact => exact hq _ rfl
  | extra => exact hq _ rfl
  | @plain _ r _ =>
    generalize hp : b ++ ['+'] = p at h1
    generalize hn : q ++ r = n at h1
    cases h1 with
    | @exact b' =>
      have : b = n := by simpa using List.append_cancel_right hp
      subst this
      exact h3 ⟨r, hn.symm⟩
    | @extra b' x =>
      have : b = b' := by simpa using List.append_cancel_right hp
      subst this
      rcases prefix_append ⟨r, hn.symm⟩ with hh | ⟨s, hs, hq', z, hz⟩
      · exact h3 hh
      · cases s with
        | nil => exact hs rfl
        | cons c s =>
          simp only [List.cons_append, List.cons.injEq] at hz
          obtain ⟨rfl, _⟩ := hz
          exact h4 ⟨s, by rw [hq']; simp⟩
    | plain hne => exact hne b hp.symm

theorem ordered_spec {p q n x y : List Char} (ho : ordered p q = true) (hp : PatternOK p = true) (hq : PatternOK q = true)
    (h1 : Matches p n x) (h2 : Matches q n y) : q.length < p.length := by
  have clean : ∀ b : List Char, PatternOK (b ++ ['+']) = true → '/' ∉ b := by
    intro b hb hm
    unfold PatternOK at hb
    rw [(endsWith_iff '+' (b ++ ['+'])).2 ⟨b, rfl⟩] at hb
    simp [hm] at hb
  unfold ordered at ho
  cases hp' : endsWith '+' p <;> cases hq' : endsWith '+' q <;> rw [hp', hq'] at ho <;> simp only at ho
  · -- two plain patterns
    have np : ∀ b, p ≠ b ++ ['+'] := fun b hb => by rw [(endsWith_iff '+' p).2 ⟨b, hb⟩] at hp'; cases hp'
    have nq : ∀ b, q ≠ b ++ ['+'] := fun b hb => by rw [(endsWith_iff '+' q).2 ⟨b, hb⟩] at hq'; cases hq'
    have hno : ¬ ∃ r, q = p ++ r := by
      rw [← hasPrefix_iff]
      simpa using ho
    cases h1 with
    | exact => exact absurd rfl (np _)
    | extra => exact absurd rfl (np _)
    | @plain _ r _ =>
      generalize hn : p ++ r = n at h2
      cases h2 with
      | exact => exact absurd rfl (nq _)
      | extra => exact absurd rfl (nq _)
      | @plain _ s _ =>
        rcases List.append_eq_append_iff.1 hn with ⟨a, ha, _⟩ | ⟨a, ha, _⟩
        · exact absurd ⟨a, ha⟩ hno
        · cases a with
          | nil => exact absurd ⟨[], by rw [ha]; simp⟩ hno
          | cons c a => rw [ha]; simp
  · exfalso
    obtain ⟨b, rfl⟩ := (endsWith_iff '+' q).1 hq'
    have np : ∀ b, p ≠ b ++ ['+'] := fun b hb => by rw [(endsWith_iff '+' p).2 ⟨b, hb⟩] at hp'; cases hp'
    simp only [List.dropLast_concat, Bool.and_eq_true, Bool.not_eq_true'] at ho
    refine plus_plain h2 h1 np (fun hh => ?_) (fun hh => ?_)
    · rw [(hasPrefix_iff _ _).2 hh] at ho; cases ho.1
    · rw [(hasPrefix_iff _ _).2 hh] at ho; cases ho.2
  · exfalso
    obtain ⟨b, rfl⟩ := (endsWith_iff '+' p).1 hp'
    have nq : ∀ b, q ≠ b ++ ['+'] := fun b hb => by rw [(endsWith_iff '+' q).2 ⟨b, hb⟩] at hq'; cases hq'
    simp only [List.dropLast_concat, Bool.and_eq_true, Bool.not_eq_true'] at ho
    refine plus_plain h1 h2 nq (fun hh => ?_) (fun hh => ?_)
    · rw [(hasPrefix_iff _ _).2 hh] at ho; cases ho.1
    · rw [(hasPrefix_iff _ _).2 hh] at ho; cases ho.2
  · exfalso
    obtain ⟨b, rfl⟩ := (endsWith_iff '+' p).1 hp'
    obtain ⟨c, rfl⟩ := (endsWith_iff '+' q).1 hq'
    have cb := clean b hp
    have cc := clean c hq
    have hne : b ≠ c := by rintro rfl; simp at ho
    have m1 := (matchSectionName_iff n _ hp x).2 h1
    have m2 := (matchSectionName_iff n _ hq y).2 h2
    have key : ∀ (d z : List Char), '/' ∉ d → Matches (d ++ ['+']) n z → (cut n).1 = d := by
      intro d z hd hm
      generalize hdd : d ++ ['+'] = pat at hm
      cases hm with
      | @exact b' =>
        have : d = n := by simpa using List.append_cancel_right hdd
        subst this
        rw [cut_clean d hd]
      | @extra b' x =>
        have : d = b' := by simpa using List.append_cancel_right hdd
        subst this
        rw [cut_slash d _ hd]
      | plain hh => exact absurd hdd.symm (hh d)
    exact hne ((key b x cb h1).symm.trans (key c y cc h2))

/-- The order of a table: every earlier pattern is fine with every later one. -/
def tableOK : List Def → Bool
  | [] => true
  | d :: ds => PatternOK d.pattern && ds.all (fun e => ordered d.pattern e.pattern) && tableOK ds

theorem tableOK_patterns : ∀ (ds : List Def), tableOK ds = true → ∀ d ∈ ds, PatternOK d.pattern = true
  | [], _, d, hd => by cases hd
  | e :: ds, h, d, hd => by
    unfold tableOK at h
    simp only [Bool.and_eq_true] at h
    rcases List.mem_cons.1 hd with rfl | hd
    · exact h.1.1
    · exact tableOK_patterns ds h.2 d hd

theorem matches_extra {p n x y : List Char} (hp : PatternOK p = true) (h1 : Matches p n x) (h2 : Matches p n y) : x = y := by
  have m1 := (matchSectionName_iff n _ hp x).2 h1
  have m2 := (matchSectionName_iff n _ hp y).2 h2
  rw [m1] at m2
  exact Option.some.inj m2

theorem search_spec (name : List Char) : ∀ (ds : List Def), tableOK ds = true →
    (∀ d x, Resolves ds name d x → search name ds = resultOf d x) ∧
    ((∀ d ∈ ds, ∀ x, ¬ Matches d.pattern name x) → search name ds = (0, 0, 0, [])) ∧
    ((∃ d ∈ ds, ∃ x, Matches d.pattern name x) → ∃ d x, Resolves ds name d x)
  | [], _ => ⟨fun d x h => (by cases h.mem), fun _ => rfl, fun ⟨d, hd, _⟩ => (by cases hd)⟩
  | t :: ts, h => by
    have h' := h
    unfold tableOK at h'
    simp only [Bool.and_eq_true, List.all_eq_true] at h'
    obtain ⟨⟨hp, hall⟩, hts⟩ := h'
    obtain ⟨i1, i2, i3⟩ := search_spec name ts hts
    have hpat := tableOK_patterns ts hts
    cases hm : matchSectionName name t.pattern with
    | some ex =>
      have hM := (matchSectionName_iff name _ hp ex).1 hm
      have hres : Resolves (t :: ts) name t ex := by
        refine ⟨List.mem_cons_self, hM, ?_⟩
        intro e he x hx
        rcases List.mem_cons.1 he with rfl | he
        · exact Nat.le_refl _
        · exact Nat.le_of_lt (ordered_spec (hall e he) hp (hpat e he) hM hx)
      refine ⟨?_, ?_, fun _ => ⟨t, ex, hres⟩⟩
      · intro d x hd
        unfold search
        rw [hm]
        simp only
        rcases List.mem_cons.1 hd.mem with he | he
        · subst he
          rw [matches_extra hp hM hd.ok]
        · exfalso
          have h1 := ordered_spec (hall d he) hp (hpat d he) hM hd.ok
          have h2 := hd.most t List.mem_cons_self ex hM
          omega
      · intro hno
        exact absurd hM (hno t List.mem_cons_self ex)
    | none =>
      have hnM : ∀ x, ¬ Matches t.pattern name x := fun x hx => by
        rw [(matchSectionName_iff name _ hp x).2 hx] at hm; cases hm
      have hs : search name (t :: ts) = search name ts := by
        rw [search, hm]
      rw [hs]
      refine ⟨?_, ?_, ?_⟩
      · intro d x hd
        apply i1
        rcases List.mem_cons.1 hd.mem with he | he
        · subst he; exact absurd hd.ok (hnM x)
        · exact ⟨he, hd.ok, fun e he' => hd.most e (List.mem_cons_of_mem _ he')⟩
      · intro hno
        exact i2 (fun d hd => hno d (List.mem_cons_of_mem _ hd))
      · rintro ⟨d, hd, x, hx⟩
        rcases List.mem_cons.1 hd with he | he
        · subst he; exact absurd hx (hnM x)
        · obtain ⟨d', x', hr⟩ := i3 ⟨d, he, x, hx⟩
          refine ⟨d', x', List.mem_cons_of_mem _ hr.mem, hr.ok, ?_⟩
          intro e he' y hy
          rcases List.mem_cons.1 he' with h2 | h2
          · subst h2; exact absurd hy (hnM y)
          · exact hr.most e h2 y hy

theorem table_ok : tableOK elfSectionDefs = true := by decide +kernel

theorem bare_trim {name bare : List Char} (h : Bare name bare) : trimOptional name = bare := by
  cases h with
  | optional => rfl
  | required h =>
    unfold trimOptional
    split
    · rename_i r
      exact absurd rfl (h r)
    · rfl

/-- **C70.** The program type, attach type, flags and attach target of a section are those of the most specific pattern its name (without a leading
question mark) matches, if there is one. -/
theorem progType_most_specific (name bare : List Char) (hb : Bare name bare) (d : Def) (extra : List Char) (h : Resolves elfSectionDefs bare d extra) :
    getProgType name = (d.progType, d.attachType, (if d.sleepable then 16 else 0) ||| (if d.xdpFrags then 32 else 0), if d.progType = 27 then [] else extra) := by
  unfold getProgType
  rw [bare_trim hb]
  exact (search_spec bare elfSectionDefs table_ok).1 d extra h

/-- **C70.** A name that matches nothing has no program type; a name that matches something has a most specific pattern. -/
theorem progType_unspecified (name bare : List Char) (hb : Bare name bare) :
    ((∀ d ∈ elfSectionDefs, ∀ x, ¬ Matches d.pattern bare x) → getProgType name = (0, 0, 0, [])) ∧
    ((∃ d ∈ elfSectionDefs, ∃ x, Matches d.pattern bare x) → ∃ d x, Resolves elfSectionDefs bare d x) := by
  unfold getProgType
  rw [bare_trim hb]
  exact (search_spec bare elfSectionDefs table_ok).2

/-- **C70.** `SEC("type/extra")` of every type that takes an argument is recognised and attaches to `extra`, whatever it is. -/
theorem progType_extra (d : Def) (hd : d ∈ elfSectionDefs) (b : List Char) (hb : d.pattern = b ++ ['+']) (extra name : List Char) (hn : Bare name (b ++ '/' :: extra)) :
    getProgType name = (d.progType, d.attachType, (if d.sleepable then 16 else 0) ||| (if d.xdpFrags then 32 else 0), if d.progType = 27 then [] else extra) := by
  show search (trimOptional name) elfSectionDefs = resultOf d extra
  rw [bare_trim hn]
  have hM : Matches d.pattern (b ++ '/' :: extra) extra := by rw [hb]; exact .extra
  obtain ⟨s1, s2, s3⟩ := search_spec (b ++ '/' :: extra) elfSectionDefs table_ok
  obtain ⟨d', x', hr⟩ := s3 ⟨d, hd, extra, hM⟩
  apply s1
  refine ⟨hd, hM, ?_⟩
  intro e he y hy
  -- only `d` matches: another pattern that matches would be in order with it
  have key : ∀ (ds : List Def), tableOK ds = true → d ∈ ds → e ∈ ds → e = d ∨ ordered d.pattern e.pattern = true ∨ ordered e.pattern d.pattern = true := by
    intro ds
    induction ds with
    | nil => intro _ h; cases h
    | cons t ts ih =>
      intro hok h1 h2
      unfold tableOK at hok
      simp only [Bool.and_eq_true, List.all_eq_true] at hok
      rcases List.mem_cons.1 h1 with a1 | a1
      · rcases List.mem_cons.1 h2 with a2 | a2
        · exact Or.inl (a2.trans a1.symm)
        · exact Or.inr (Or.inl (a1 ▸ hok.1.2 e a2))
      · rcases List.mem_cons.1 h2 with a2 | a2
        · exact Or.inr (Or.inr (a2 ▸ hok.1.2 d a1))
        · exact ih hok.2 a1 a2
  have hpd := tableOK_patterns _ table_ok d hd
  have hpe := tableOK_patterns _ table_ok e he
  rcases key _ table_ok hd he with rfl | ho | ho
  · exact Nat.le_refl _
  · exact Nat.le_of_lt (ordered_spec ho hpd hpe hM hy)
  · exfalso
    -- a plus pattern and another one never match the same name
    have hpl : endsWith '+' d.pattern = true := (endsWith_iff '+' _).2 ⟨b, hb⟩
    unfold ordered at ho
    rw [hpl] at ho
    cases he' : endsWith '+' e.pattern with
    | true =>
      rw [he'] at ho
      simp only [bne_iff_ne, ne_eq] at ho
      have h1 := ordered_spec (show ordered d.pattern e.pattern = true from by unfold ordered; rw [hpl, he']; simpa using Ne.symm ho) hpd hpe hM hy
      have h2 := ordered_spec (show ordered e.pattern d.pattern = true from by unfold ordered; rw [hpl, he']; simpa using ho) hpe hpd hy hM
      omega
    | false =>
      rw [he'] at ho
      simp only at ho
      have h1 := ordered_spec (show ordered d.pattern e.pattern = true from by unfold ordered; rw [hpl, he']; exact ho) hpd hpe hM hy
      have h2 := ordered_spec (show ordered e.pattern d.pattern = true from by unfold ordered; rw [hpl, he']; exact ho) hpe hpd hy hM
      omega

/-- **C70.** The name of every pattern itself selects its definition. -/
theorem progType_names : ∀ d ∈ elfSectionDefs,
    getProgType (d.pattern.filter (fun c => c != '+')) = (d.progType, d.attachType, (if d.sleepable then 16 else 0) ||| (if d.xdpFrags then 32 else 0), []) := by decide +kernel

/-! ## examples -/

/-- `fentry.s/vfs_read`: a sleepable tracing program attached to `vfs_read`. -/
example : getProgType ['?', 'f', 'e', 'n', 't', 'r', 'y', '.', 's', '/', 'v', 'f', 's'] = (26, 24, 16, ['v', 'f', 's']) := by decide +kernel

/-- `xdp.frags/devmap_x`: the most specific pattern counts. -/
example : getProgType ['x', 'd', 'p', '.', 'f', 'r', 'a', 'g', 's', '/', 'd', 'e', 'v', 'm', 'a', 'p', 'x'] = (6, 33, 32, []) := by decide +kernel

/-- Unlike in libbpf, plain patterns are prefixes: a section `tcp_stats` is a classifier. -/
example : getProgType ['t', 'c', 'p', '_', 's', 't', 'a', 't', 's'] = (3, 0, 0, []) := by decide +kernel

end Ebpf.Sections
