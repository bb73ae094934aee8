import Verif.Spec.TracefsPath
import Verif.Props.OnceCache
import Verif.Props.Tracefs
/-!
# C116: where tracefs is, and which of its files are opened
-/
namespace Ebpf.TracefsPath
open Spec

/-! ## Components -/

theorem comps_ne (t : Bytes) : comps t ≠ [] := by
  cases t with
  | nil => simp [comps]
  | cons c t =>
    rw [comps]
    split
    · simp
    · split <;> simp

theorem text_comps (t : Bytes) : Text (comps t) t := by
  induction t with
  | nil => exact .last [] (by simp)
  | cons c t ih =>
    rw [comps]
    by_cases h : c = slash
    · rw [if_pos h, h]
      exact .more [] (comps t) t (by simp) ih
    · rw [if_neg h]
      cases hc : comps t with
      | nil => exact absurd hc (comps_ne t)
      | cons w ws =>
        rw [hc] at ih
        dsimp only
        cases ih with
        | last _ hw => exact .last _ (by simp only [List.mem_cons, not_or]; exact ⟨fun e => h e.symm, hw⟩)
        | more _ _ u hw hu => exact .more (c :: w) ws u (by simp only [List.mem_cons, not_or]; exact ⟨fun e => h e.symm, hw⟩) hu

theorem comps_single {c : Bytes} (h : slash ∉ c) : comps c = [c] := by
  induction c with
  | nil => rfl
  | cons x c ih =>
    simp only [List.mem_cons, not_or] at h
    rw [comps, if_neg (fun e => h.1 e.symm), ih h.2]

theorem comps_append (a b : Bytes) : comps (a ++ slash :: b) = comps a ++ comps b := by
  induction a with
  | nil => simp [comps]
  | cons x a ih =>
    rw [List.cons_append, comps, comps, ih]
    by_cases h : x = slash
    · rw [if_pos h, if_pos h]; rfl
    · rw [if_neg h, if_neg h]
      cases hc : comps a with
      | nil => exact absurd hc (comps_ne a)
      | cons w ws => rfl

theorem comps_text {cs : List Bytes} {t : Bytes} (h : Text cs t) : comps t = cs := by
  induction h with
  | last c h => exact comps_single h
  | more c cs t h _ ih =>
    rw [show (0x2f : Byte) = slash from rfl, comps_append, comps_single h, ih]; rfl

theorem comps_free {t c : Bytes} (h : c ∈ comps t) : slash ∉ c := by
  have := text_comps t
  generalize comps t = cs at *
  induction this with
  | last w hw => rw [List.mem_singleton] at h; rw [h]; exact hw
  | more w ws t hw _ ih =>
    rcases List.mem_cons.mp h with h | h
    · rw [h]; exact hw
    · exact ih h

theorem joinSlash_eq (es : List Bytes) : joinSlash es = ([0x2f] : Bytes).intercalate es := by
  fun_induction joinSlash es with
  | case1 => rfl
  | case2 w => simp [List.intercalate]
  | case3 w v ws ih =>
    rw [ih]
    simp [List.intercalate, List.intersperse, slash]

theorem comps_joinSlash {cs : List Bytes} (h : ∀ c ∈ cs, slash ∉ c) (hne : cs ≠ []) : comps (joinSlash cs) = cs := by
  fun_induction joinSlash cs with
  | case1 => exact absurd rfl hne
  | case2 w => exact comps_single (h w (by simp))
  | case3 w v ws ih =>
    rw [comps_append, ih (fun c hc => h c (List.mem_cons_of_mem _ hc)) (by simp), comps_single (h w (by simp))]
    rfl

/-! ## Walking -/

/-- From `d` through `cs`. -/
def go (d cs : List Bytes) : List Bytes := cs.foldl (cleanStep true) d

theorem go_cons (d : List Bytes) (c : Bytes) (cs : List Bytes) : go d (c :: cs) = go (cleanStep true d c) cs := rfl
theorem go_append (d a b : List Bytes) : go d (a ++ b) = go (go d a) b := List.foldl_append

theorem dots_not_name : ¬ Name dots := fun h => h.2.2.1 rfl

theorem step_name {d : List Bytes} {c : Bytes} (h : Name c) (r : Bool) : cleanStep r d c = d ++ [c] := by
  unfold cleanStep
  rw [if_neg (fun hc => hc.elim h.1 h.2.1), if_neg (show ¬ c = dots from h.2.2.1)]

theorem last_name {d : List Bytes} (hd : ∀ c ∈ d, Name c) : d.getLast? ≠ some dots := by
  intro h
  exact dots_not_name (hd _ (List.mem_of_getLast? h))

theorem step_up {d : List Bytes} (hd : ∀ c ∈ d, Name c) : cleanStep true d dots = d.dropLast := by
  unfold cleanStep
  rw [if_neg (by decide), if_pos rfl]
  by_cases h : d = []
  · rw [if_pos h, h]; rfl
  · rw [if_neg h, if_neg (last_name hd)]

theorem step_cases {d : List Bytes} (hd : ∀ c ∈ d, Name c) {c : Bytes} (hc : slash ∉ c) :
    ((c = [] ∨ c = dot) ∧ cleanStep true d c = d) ∨ (c = dots ∧ cleanStep true d c = d.dropLast) ∨ (Name c ∧ cleanStep true d c = d ++ [c]) := by
  by_cases h1 : c = [] ∨ c = dot
  · exact .inl ⟨h1, by unfold cleanStep; rw [if_pos h1]⟩
  · by_cases h2 : c = dots
    · exact .inr (.inl ⟨h2, h2 ▸ step_up hd⟩)
    · have hn : Name c := ⟨fun h => h1 (.inl h), fun h => h1 (.inr h), h2, hc⟩
      exact .inr (.inr ⟨hn, step_name hn _⟩)

theorem step_names {d : List Bytes} (hd : ∀ c ∈ d, Name c) {c : Bytes} (hc : slash ∉ c) : ∀ x ∈ cleanStep true d c, Name x := by
  rcases step_cases hd hc with ⟨_, h⟩ | ⟨_, h⟩ | ⟨hn, h⟩ <;> rw [h]
  · exact hd
  · exact fun x hx => hd x (List.dropLast_subset _ hx)
  · intro x hx
    rcases List.mem_append.mp hx with hx | hx
    · exact hd x hx
    · rw [List.mem_singleton] at hx; exact hx ▸ hn

theorem go_names {cs : List Bytes} : ∀ {d : List Bytes}, (∀ c ∈ d, Name c) → (∀ c ∈ cs, slash ∉ c) → ∀ x ∈ go d cs, Name x := by
  induction cs with
  | nil => exact fun hd _ => hd
  | cons c cs ih =>
    intro d hd hc
    exact ih (step_names hd (hc c (by simp))) (fun x hx => hc x (List.mem_cons_of_mem _ hx))

theorem walk_go {cs : List Bytes} : ∀ {d : List Bytes}, (∀ c ∈ d, Name c) → (∀ c ∈ cs, slash ∉ c) → Walk d cs (go d cs) := by
  induction cs with
  | nil => exact fun _ _ => .done _
  | cons c cs ih =>
    intro d hd hc
    have := ih (step_names hd (hc c (by simp))) (fun x hx => hc x (List.mem_cons_of_mem _ hx))
    rw [go_cons]
    rcases step_cases hd (hc c (by simp)) with ⟨h, e⟩ | ⟨h, e⟩ | ⟨h, e⟩ <;> rw [e] at this ⊢
    · exact .stay _ _ _ _ h this
    · rw [h]; exact .up _ _ _ this
    · exact .down _ _ _ _ h this

theorem walk_unique {d cs e f : List Bytes} (h : Walk d cs e) (h' : Walk d cs f) : e = f := by
  induction h with
  | done => cases h'; rfl
  | stay d c cs e hc _ ih =>
    cases h' with
    | stay _ _ _ _ _ h => exact ih h
    | up _ _ _ h => rcases hc with hc | hc <;> cases hc
    | down _ _ _ _ hn h => exact absurd hc (fun hc => hc.elim hn.1 hn.2.1)
  | up d cs e _ ih =>
    cases h' with
    | stay _ _ _ _ hc h => rcases hc with hc | hc <;> cases hc
    | up _ _ _ h => exact ih h
    | down _ _ _ _ hn h => exact absurd hn dots_not_name
  | down d c cs e hn _ ih =>
    cases h' with
    | stay _ _ _ _ hc h => exact absurd hc (fun hc => hc.elim hn.1 hn.2.1)
    | up _ _ _ h => exact absurd hn dots_not_name
    | down _ _ _ _ _ h => exact ih h

theorem walk_iff {d cs e : List Bytes} (hd : ∀ c ∈ d, Name c) (hc : ∀ c ∈ cs, slash ∉ c) : Walk d cs e ↔ e = go d cs :=
  ⟨fun h => walk_unique h (walk_go hd hc), fun h => h ▸ walk_go hd hc⟩

theorem go_name_list {e : List Bytes} (he : ∀ c ∈ e, Name c) (b : List Bytes) : go b e = b ++ e := by
  induction e generalizing b with
  | nil => simp [go]
  | cons c e ih =>
    rw [go_cons, step_name (he c (by simp)), ih (fun x hx => he x (List.mem_cons_of_mem _ hx))]
    simp

/-- Cleaning a relative path doesn't change where it leads. -/
theorem go_clean {b : List Bytes} (hb : ∀ c ∈ b, Name c) {cs : List Bytes} : ∀ {out : List Bytes}, (∀ c ∈ out, c = dots ∨ Name c) → (∀ c ∈ cs, slash ∉ c) →
    go b (cs.foldl (cleanStep false) out) = go (go b out) cs ∧ ∀ c ∈ cs.foldl (cleanStep false) out, c = dots ∨ Name c := by
  induction cs with
  | nil => exact fun ho _ => ⟨rfl, ho⟩
  | cons c cs ih =>
    intro out ho hc
    have hfree : ∀ x ∈ out, slash ∉ x := by
      intro x hx
      rcases ho x hx with rfl | h
      · decide
      · exact h.2.2.2
    have hn : ∀ x ∈ go b out, Name x := go_names hb hfree
    have key : go b (cleanStep false out c) = cleanStep true (go b out) c ∧ ∀ x ∈ cleanStep false out c, x = dots ∨ Name x := by
      rcases step_cases hn (hc c (by simp)) with ⟨h, e⟩ | ⟨h, e⟩ | ⟨h, e⟩
      · rw [e]
        have : cleanStep false out c = out := by unfold cleanStep; rw [if_pos h]
        rw [this]; exact ⟨rfl, ho⟩
      · subst h
        rw [e]
        have up : ∀ l : List Bytes, (∀ x ∈ l, Name x) → go l [dots] = l.dropLast := fun l hl => step_up hl
        unfold cleanStep
        rw [if_neg (by decide), if_pos rfl]
        by_cases h0 : out = []
        · rw [if_pos h0, h0]
          exact ⟨up b hb, fun x hx => .inl (by simpa using hx)⟩
        · rw [if_neg h0]
          by_cases hl : out.getLast? = some dots
          · rw [if_pos hl, go_append, up _ hn]
            refine ⟨rfl, fun x hx => ?_⟩
            rcases List.mem_append.mp hx with hx | hx
            · exact ho x hx
            · exact .inl (by simpa using hx)
          · rw [if_neg hl]
            refine ⟨?_, fun x hx => ho x (List.dropLast_subset _ hx)⟩
            rcases List.eq_nil_or_concat out with h | ⟨o, n, h⟩
            · exact absurd h h0
            · rw [List.concat_eq_append] at h
              subst h
              have hnn : Name n := by
                rcases ho n (by simp) with h | h
                · subst h; simp at hl
                · exact h
              rw [List.dropLast_concat, go_append]
              show _ = (cleanStep true (go b o) n).dropLast
              rw [step_name hnn, List.dropLast_concat]
      · rw [e, step_name h, go_append]
        refine ⟨step_name h _, fun x hx => ?_⟩
        rcases List.mem_append.mp hx with hx | hx
        · exact ho x hx
        · rw [List.mem_singleton] at hx; exact .inr (hx ▸ h)
    obtain ⟨k1, k2⟩ := ih key.2 (fun x hx => hc x (List.mem_cons_of_mem _ hx))
    exact ⟨by rw [List.foldl_cons, k1, key.1]; rfl, k2⟩

/-! ## Paths -/

theorem path_eq (d : List Bytes) : path d = slash :: joinSlash d := by
  unfold path
  by_cases h : d = []
  · rw [if_pos h, h]; rfl
  · rw [if_neg h]
    fun_induction joinSlash d with
    | case1 => exact absurd rfl h
    | case2 w => simp [slash]
    | case3 w v ws ih => rw [List.flatMap_cons, ih (by simp)]; simp [slash]

theorem go_path {e : List Bytes} (he : ∀ c ∈ e, Name c) (b : List Bytes) : go b (comps (path e)) = b ++ e := by
  rw [path_eq]
  show go b (comps ([] ++ slash :: joinSlash e)) = b ++ e
  rw [comps_append, go_append]
  have e0 : go b (comps []) = b := rfl
  rw [e0]
  by_cases h : e = []
  · subst h; rw [List.append_nil]; exact e0
  · rw [comps_joinSlash (fun c hc => (he c hc).2.2.2) h, go_name_list he]

theorem clean_rooted (t : Bytes) : clean (slash :: t) = path (go [] (comps (slash :: t))) := by
  rw [path_eq]
  unfold clean
  rw [if_neg (by simp), if_pos (show (slash :: t).head? = some slash from rfl)]
  rfl

/-- Cleaning a clean absolute path doesn't change it. -/
theorem clean_path {d : List Bytes} (hd : ∀ c ∈ d, Name c) : clean (path d) = path d := by
  have h := path_eq d
  rw [h, clean_rooted, ← h, go_path hd]; rfl

theorem join_base {b : List Bytes} (hb : ∀ c ∈ b, Name c) (l : Bytes) : join [path b, l] = path (go b (comps l)) := by
  have hne : path b ≠ [] := by rw [path_eq]; simp
  have : [path b, l].dropWhile (· = []) = [path b, l] := by simp [List.dropWhile, hne]
  unfold join
  rw [this, if_neg (by simp)]
  show clean (path b ++ slash :: l) = _
  have h2 : path b ++ slash :: l = slash :: (joinSlash b ++ slash :: l) := by rw [path_eq]; rfl
  rw [h2, clean_rooted, ← h2, comps_append, go_append, go_path hb]
  rfl

theorem head_comps {t : Bytes} : (comps t).head? = some [] ↔ t = [] ∨ t.head? = some slash := by
  cases t with
  | nil => simp [comps]
  | cons c t =>
    rw [comps]
    by_cases h : c = slash
    · simp [h]
    · rw [if_neg h]
      cases comps t <;> simp [h]

/-- Where the model of `sanitizeTracefsPath` arrives. -/
theorem lands {b : List Bytes} (hb : ∀ c ∈ b, Name c) (es : List Bytes) : ∃ d, Lands b es d ∧ (∀ c ∈ d, Name c) ∧ join [path b, join es] = path d := by
  rw [join_base hb]
  refine ⟨_, ?_, go_names hb (fun c hc => comps_free hc), rfl⟩
  unfold join Lands
  generalize hes : es.dropWhile (· = []) = es'
  refine ⟨_, text_comps _, ?_⟩
  rw [← joinSlash_eq]
  have free : ∀ c ∈ comps (joinSlash es'), slash ∉ c := fun c hc => comps_free hc
  by_cases h : es' = []
  · subst h
    rw [if_pos rfl, if_pos (by rfl)]
    exact ⟨[], .stay _ _ _ _ (.inl rfl) (.done _), by simp [go, comps, cleanStep]⟩
  · rw [if_neg h]
    have hne : joinSlash es' ≠ [] := by
      cases es' with
      | nil => exact absurd rfl h
      | cons w ws =>
        have hw : w ≠ [] := by
          intro hw
          have := List.head?_dropWhile_not (fun x : Bytes => decide (x = [])) es
          rw [hes] at this
          simp [hw] at this
        cases ws with
        | nil => exact hw
        | cons v vs => simp [joinSlash]
    by_cases hs : (joinSlash es').head? = some slash
    · rw [if_pos (head_comps.mpr (.inr hs))]
      cases ht : joinSlash es' with
      | nil => exact absurd ht hne
      | cons c t =>
        rw [ht] at hs
        cases hs
        refine ⟨go [] (comps (slash :: t)), walk_go (by simp) (fun c hc => comps_free hc), ?_⟩
        rw [clean_rooted, go_path (go_names (by simp) (fun c hc => comps_free hc))]
    · rw [if_neg (fun hc => (head_comps.mp hc).elim hne hs), walk_iff hb free]
      obtain ⟨h1, h2⟩ := go_clean hb (out := []) (by simp) free
      unfold clean
      rw [if_neg hne, if_neg hs]
      rw [show go b [] = b from rfl] at h1
      by_cases ho : (comps (joinSlash es')).foldl (cleanStep false) [] = []
      · rw [if_pos ho]
        rw [ho] at h1
        exact h1
      · rw [if_neg ho, comps_joinSlash (fun c hc => ?_) ho, h1]
        rcases h2 c hc with rfl | h
        · decide
        · exact h.2.2.2

theorem lands_unique {b es d d' : List Bytes} (h : Lands b es d) (h' : Lands b es d') : d = d' := by
  obtain ⟨cs, t, h⟩ := h
  obtain ⟨cs', t', h'⟩ := h'
  have := (comps_text t).symm.trans (comps_text t')
  subst this
  by_cases hc : cs.head? = some []
  · rw [if_pos hc] at h h'
    obtain ⟨e, w, rfl⟩ := h
    obtain ⟨e', w', rfl⟩ := h'
    rw [walk_unique w w']
  · rw [if_neg hc] at h h'
    exact walk_unique h h'

/-! ## sanitizeTracefsPath -/

/-- **C116.** `sanitizeTracefsPath` gives the directory or file to which the path leads from tracefs, iff the text of its path begins with that of tracefs; and an error otherwise. -/
theorem sanitize_exact {b : List Bytes} (hb : ∀ c ∈ b, Name c) (es : List Bytes) (r : Except Err Bytes) :
    sanitize (.ok (path b)) es = r ↔ ∃ d, Lands b es d ∧ ((path b <+: path d ∧ r = .ok (path d)) ∨ (¬ path b <+: path d ∧ r = .error .escape)) := by
  obtain ⟨d, h1, _, h3⟩ := lands hb es
  unfold sanitize
  dsimp only
  rw [h3]
  by_cases hp : path b <+: path d
  · rw [if_pos (List.isPrefixOf_iff_prefix.mpr hp)]
    constructor
    · exact fun h => ⟨d, h1, .inl ⟨hp, h.symm⟩⟩
    · rintro ⟨d', h', h⟩
      rw [lands_unique h' h1] at h
      rcases h with ⟨_, h⟩ | ⟨h, _⟩
      · exact h.symm
      · exact absurd hp h
  · rw [if_neg (fun h => hp (List.isPrefixOf_iff_prefix.mp h))]
    constructor
    · exact fun h => ⟨d, h1, .inr ⟨hp, h.symm⟩⟩
    · rintro ⟨d', h', h⟩
      rw [lands_unique h' h1] at h
      rcases h with ⟨h, _⟩ | ⟨_, h⟩
      · exact absurd h hp
      · exact h.symm

theorem path_append_ne {b : List Bytes} (h : b ≠ []) : path b = b.flatMap fun c => slash :: c := by
  unfold path; rw [if_neg h]; rfl

theorem prefix_of {b d : List Bytes} (h : b <+: d) : path b <+: path d := by
  obtain ⟨e, rfl⟩ := h
  by_cases hb : b = []
  · subst hb; rw [path_eq, path_eq]; exact ⟨joinSlash e, rfl⟩
  · rw [path_append_ne hb, path_append_ne (by simp [hb]), List.flatMap_append]
    exact List.prefix_append _ _

theorem split_free {x z u v : Bytes} (hx : slash ∉ x) (hz : slash ∉ z) (h : x ++ slash :: u = z ++ slash :: v) : x = z ∧ u = v := by
  induction x generalizing z with
  | nil =>
    cases z with
    | nil => simpa using h
    | cons c z =>
      simp only [List.nil_append, List.cons_append, List.cons.injEq] at h
      exact absurd (List.mem_cons.mpr (.inl h.1)) hz
  | cons a x ih =>
    cases z with
    | nil =>
      simp only [List.nil_append, List.cons_append, List.cons.injEq] at h
      exact absurd (List.mem_cons.mpr (.inl h.1.symm)) hx
    | cons c z =>
      simp only [List.cons_append, List.cons.injEq] at h
      simp only [List.mem_cons, not_or] at hx hz
      obtain ⟨e1, e2⟩ := ih hx.2 hz.2 h.2
      exact ⟨by rw [h.1, e1], e2⟩

theorem flat_cases {d : List Bytes} : (d.flatMap fun c => slash :: c) = [] ∨ ∃ t, (d.flatMap fun c => slash :: c) = slash :: t := by
  cases d with
  | nil => exact .inl rfl
  | cons c d => exact .inr ⟨_, rfl⟩

theorem prefix_cases {b : List Bytes} : ∀ {d : List Bytes}, (∀ c ∈ b, Name c) → (∀ c ∈ d, Name c) →
    ((b.flatMap fun c => slash :: c) <+: (d.flatMap fun c => slash :: c)) →
    b <+: d ∨ ∃ pre x y e, b = pre ++ [x] ∧ d = pre ++ (x ++ y) :: e ∧ y ≠ [] := by
  induction b with
  | nil => exact fun _ _ _ => .inl (List.nil_prefix)
  | cons x b ih =>
    intro d hb hd h
    cases d with
    | nil => simp at h
    | cons z d =>
      simp only [List.flatMap_cons, List.cons_append, List.cons_prefix_cons, true_and] at h
      have hx := (hb x (by simp)).2.2.2
      have hz := (hd z (by simp)).2.2.2
      cases b with
      | nil =>
        simp only [List.flatMap_nil, List.append_nil] at h
        rcases List.prefix_or_prefix_of_prefix h (List.prefix_append z _) with hp | hp
        · obtain ⟨y, rfl⟩ := hp
          by_cases hy : y = []
          · subst hy; exact .inl ⟨d, by simp⟩
          · exact .inr ⟨[], x, y, d, rfl, rfl, hy⟩
        · obtain ⟨y, rfl⟩ := hp
          rw [List.prefix_append_right_inj] at h
          cases y with
          | nil => exact .inl ⟨d, by simp⟩
          | cons c y =>
            rcases flat_cases (d := d) with hf | ⟨t, hf⟩
            · rw [hf] at h; simp at h
            · rw [hf, List.cons_prefix_cons] at h
              exact absurd (by rw [h.1]; simp [slash]) hx
      | cons w b =>
        obtain ⟨r, hr⟩ := h
        have hf : ∃ t, (d.flatMap fun c => slash :: c) = slash :: t := by
          rcases flat_cases (d := d) with hf | hf
          · rw [hf, List.append_nil] at hr
            rw [← hr] at hz
            exact absurd (by simp [slash]) hz
          · exact hf
        obtain ⟨t, hf⟩ := hf
        have hr2 : x ++ slash :: (w ++ (b.flatMap fun c => slash :: c) ++ r) = z ++ slash :: t := by
          rw [← hf, ← hr]; simp
        obtain ⟨e1, e2⟩ := split_free hx hz hr2
        subst e1
        rcases ih (d := d) (fun c hc => hb c (List.mem_cons_of_mem _ hc)) (fun c hc => hd c (List.mem_cons_of_mem _ hc))
          ⟨r, by rw [hf, ← e2]; simp⟩ with h | ⟨pre, x', y, e, h1, h2, h3⟩
        · exact .inl ((List.cons_prefix_cons).mpr ⟨rfl, h⟩)
        · exact .inr ⟨x :: pre, x', y, e, by rw [h1]; rfl, by rw [h2]; rfl, h3⟩

/-- **C116.** What is given for any path is below tracefs, or else beside it: in a directory whose name begins with the name of tracefs. (The check of the code compares
text, so that it doesn't exclude the latter; `EventID` and `eventsFile` never get there, see below.) Whatever leads below tracefs is accepted. -/
theorem sanitize_contained {b : List Bytes} (hb : ∀ c ∈ b, Name c) (es : List Bytes) :
    (∀ p, sanitize (.ok (path b)) es = .ok p → ∃ d, Lands b es d ∧ p = path d ∧
      (b <+: d ∨ ∃ pre x y e, b = pre ++ [x] ∧ d = pre ++ (x ++ y) :: e ∧ y ≠ [])) ∧
    (∀ d, Lands b es d → b <+: d → sanitize (.ok (path b)) es = .ok (path d)) := by
  constructor
  · intro p hp
    obtain ⟨d, hl, h⟩ := (sanitize_exact hb es _).mp hp
    rcases h with ⟨h, e⟩ | ⟨_, e⟩
    · cases e
      refine ⟨d, hl, rfl, ?_⟩
      have hd : ∀ c ∈ d, Name c := by
        obtain ⟨d', h1, h2, _⟩ := lands hb es
        rw [lands_unique hl h1]; exact h2
      by_cases h0 : b = []
      · subst h0; exact .inl List.nil_prefix
      · refine prefix_cases hb hd ?_
        rw [path_append_ne h0] at h
        by_cases hd0 : d = []
        · subst hd0
          cases b with
          | nil => exact absurd rfl h0
          | cons x b =>
            rw [path_eq] at h
            simp only [List.flatMap_cons, List.cons_append, joinSlash, List.cons_prefix_cons, true_and, List.prefix_nil, List.append_eq_nil_iff] at h
            exact absurd h.1 (hb x (by simp)).1
        · rw [path_append_ne hd0] at h
          exact h
    · cases e
  · intro d hl hp
    exact (sanitize_exact hb es _).mpr ⟨d, hl, .inl ⟨prefix_of hp, rfl⟩⟩

/-- **C116.** Names lead to the file of those names. -/
theorem sanitize_names {b es : List Bytes} (hb : ∀ c ∈ b, Name c) (he : ∀ c ∈ es, Name c) : sanitize (.ok (path b)) es = .ok (path (b ++ es)) := by
  refine (sanitize_contained hb es).2 _ ?_ (List.prefix_append _ _)
  obtain ⟨d, h1, _⟩ := lands hb es
  have hfree : ∀ c ∈ es, slash ∉ c := fun c hc => (he c hc).2.2.2
  by_cases h : es = []
  · subst h
    exact ⟨[[]], .last _ (by simp), by rw [if_pos (show ([[]] : List Bytes).head? = some [] from rfl)]; exact ⟨[], .stay _ _ _ _ (.inl rfl) (.done _), rfl⟩⟩
  · have hdw : es.dropWhile (· = []) = es := by
      cases es with
      | nil => rfl
      | cons c es => simp [List.dropWhile, (he c (by simp)).1]
    refine ⟨es, ?_, ?_⟩
    · rw [hdw, ← joinSlash_eq]
      have := text_comps (joinSlash es)
      rwa [comps_joinSlash hfree h] at this
    · rw [if_neg ?_, walk_iff hb hfree, go_name_list he]
      cases es with
      | nil => exact absurd rfl h
      | cons c es => simpa using (he c (by simp)).1

/-! ## Finding tracefs -/

theorem below_eq {p : Bytes} (h : Dir p) {n : Bytes} (hn : Name n) : join [p, n] = below p n ∧ Dir (below p n) ∧ below p n ≠ [] := by
  obtain ⟨d, hd, rfl⟩ := h
  have e : join [path d, n] = path (d ++ [n]) := by
    rw [join_base hd, comps_single hn.2.2.2, go_name_list (fun c hc => by rw [List.mem_singleton] at hc; exact hc ▸ hn)]
  have e2 : path (d ++ [n]) = below (path d) n := by
    unfold below
    by_cases h : d = []
    · subst h; rw [if_pos (show path [] = [0x2f] from rfl)]; simp [path]
    · have : path d ≠ [0x2f] := by
        cases d with
        | nil => exact absurd rfl h
        | cons c d =>
          have := (hd c (by simp)).1
          cases c with
          | nil => exact absurd rfl this
          | cons x c => rw [path_append_ne (by simp)]; simp
      rw [if_neg this, path_append_ne h, path_append_ne (by simp), List.flatMap_append]
      simp [slash]
  refine ⟨e.trans e2, ⟨d ++ [n], fun c hc => ?_, e2.symm⟩, by rw [← e2, path_eq]; simp⟩
  rcases List.mem_append.mp hc with hc | hc
  · exact hd c hc
  · rw [List.mem_singleton] at hc; exact hc ▸ hn

theorem tracing_name : Name tracing := ⟨by decide, by decide, by decide, by decide⟩

theorem dir_ne {p : Bytes} (h : Dir p) : p ≠ [] := by
  obtain ⟨d, _, rfl⟩ := h
  rw [path_eq]; simp

theorem findTracefs_cons (e : Entry) (es : List Entry) : (Mounts tracefs e → findTracefs (e :: es) = some e.mountPoint) ∧ (¬ Mounts tracefs e → findTracefs (e :: es) = findTracefs es) := by
  constructor
  · intro h
    rw [findTracefs, if_pos]
    exact h
  · intro h
    rw [findTracefs, if_neg]
    exact h

theorem findTracefs_none {es : List Entry} : findTracefs es = none ↔ ∀ e ∈ es, ¬ Mounts tracefs e := by
  induction es with
  | nil => simp [findTracefs]
  | cons e es ih =>
    rw [List.forall_mem_cons, ← ih]
    by_cases h : Mounts tracefs e
    · rw [(findTracefs_cons e es).1 h]; simp [h]
    · rw [(findTracefs_cons e es).2 h]; simp [h]

theorem findTracefs_some {es : List Entry} {p : Bytes} : findTracefs es = some p ↔
    ∃ a b e, es = a ++ e :: b ∧ Mounts tracefs e ∧ (∀ x ∈ a, ¬ Mounts tracefs x) ∧ p = e.mountPoint := by
  induction es with
  | nil => simp [findTracefs]
  | cons e es ih =>
    by_cases h : Mounts tracefs e
    · rw [(findTracefs_cons e es).1 h]
      constructor
      · intro hp; cases hp
        exact ⟨[], es, e, rfl, h, by simp, rfl⟩
      · rintro ⟨a, b, f, h1, h2, h3, rfl⟩
        cases a with
        | nil => cases h1; rfl
        | cons x a => cases h1; exact absurd h (h3 _ (by simp))
    · rw [(findTracefs_cons e es).2 h, ih]
      constructor
      · rintro ⟨a, b, f, rfl, h2, h3, h4⟩
        exact ⟨e :: a, b, f, rfl, h2, List.forall_mem_cons.mpr ⟨h, h3⟩, h4⟩
      · rintro ⟨a, b, f, h1, h2, h3, h4⟩
        cases a with
        | nil => cases h1; exact absurd h2 h
        | cons x a => cases h1; exact ⟨a, b, f, rfl, h2, (List.forall_mem_cons.mp h3).2, h4⟩

theorem findDebugfs_spec {isDir : Bytes → Bool} {es : List Entry} (hd : ∀ e ∈ es, Dir e.mountPoint) :
    (findDebugfs isDir es = [] ∧ ∀ e ∈ es, Mounts debugfs e → isDir (below e.mountPoint tracing) = false) ∨
    ∃ a b e, es = a ++ e :: b ∧ Mounts debugfs e ∧ isDir (below e.mountPoint tracing) = true ∧
      (∀ x ∈ a, Mounts debugfs x → isDir (below x.mountPoint tracing) = false) ∧ findDebugfs isDir es = below e.mountPoint tracing ∧ findDebugfs isDir es ≠ [] := by
  induction es with
  | nil => exact .inl ⟨rfl, by simp⟩
  | cons e es ih =>
    obtain ⟨hj, _, hne⟩ := below_eq (hd e (by simp)) tracing_name
    have ih := ih (fun x hx => hd x (List.mem_cons_of_mem _ hx))
    have skip : (Mounts debugfs e → isDir (below e.mountPoint tracing) = false) → findDebugfs isDir (e :: es) = findDebugfs isDir es → 
        (findDebugfs isDir (e :: es) = [] ∧ ∀ x ∈ e :: es, Mounts debugfs x → isDir (below x.mountPoint tracing) = false) ∨
        ∃ a b f, e :: es = a ++ f :: b ∧ Mounts debugfs f ∧ isDir (below f.mountPoint tracing) = true ∧
        (∀ x ∈ a, Mounts debugfs x → isDir (below x.mountPoint tracing) = false) ∧ findDebugfs isDir (e :: es) = below f.mountPoint tracing ∧ findDebugfs isDir (e :: es) ≠ [] := by
      intro hs he
      rw [he]
      rcases ih with ⟨h1, h2⟩ | ⟨a, b, f, h1, h2, h3, h4, h5⟩
      · exact .inl ⟨h1, List.forall_mem_cons.mpr ⟨hs, h2⟩⟩
      · exact .inr ⟨e :: a, b, f, by rw [h1]; rfl, h2, h3, List.forall_mem_cons.mpr ⟨hs, h4⟩, h5⟩
    by_cases hm : Mounts debugfs e
    · have step : findDebugfs isDir (e :: es) = if isDir (join [e.mountPoint, tracing]) then join [e.mountPoint, tracing] else findDebugfs isDir es := by
        rw [findDebugfs, if_neg]
        · rfl
        · exact fun h => h.elim (fun h => h hm.1) (fun h => h hm.2)
      rw [hj] at step
      by_cases hi : isDir (below e.mountPoint tracing) = true
      · rw [if_pos hi] at step
        exact .inr ⟨[], es, e, rfl, hm, hi, by simp, step, step ▸ hne⟩
      · rw [if_neg hi] at step
        exact skip (fun _ => by simpa using hi) step
    · refine skip (fun h => absurd h hm) ?_
      rw [findDebugfs, if_pos]
      by_cases h1 : e.fsType = debugfs
      · exact .inr (fun h2 => hm ⟨h1, h2⟩)
      · exact .inl h1

theorem probe_spec (env : Env) (h : Nothing env) (r : Except Err Bytes) : probe env.fsType usual = r →
    (∀ p, r = .ok p → Found env p) ∧ (∀ e, r = .error e → e = .notMounted ∧ env.fsType place1 ≠ some 0x74726163 ∧ ¬ (env.fsType place2 = some 0x74726163 ∨ env.fsType place2 = some 0x64626720)) := by
  intro hr
  have e : probe env.fsType usual = if env.fsType place1 = some 0x74726163 then .ok place1 else
      if env.fsType place2 = some 0x74726163 then .ok place2 else if env.fsType place2 = some 0x64626720 then .ok place2 else .error .notMounted := rfl
  rw [e] at hr
  by_cases h1 : env.fsType place1 = some 0x74726163
  · rw [if_pos h1] at hr
    subst hr
    exact ⟨fun p hp => by cases hp; exact .place1 h h1, (fun e he => by cases he)⟩
  · rw [if_neg h1] at hr
    by_cases h2 : env.fsType place2 = some 0x74726163
    · rw [if_pos h2] at hr
      subst hr
      exact ⟨fun p hp => by cases hp; exact .place2 h h1 (.inl h2), (fun e he => by cases he)⟩
    · rw [if_neg h2] at hr
      by_cases h3 : env.fsType place2 = some 0x64626720
      · rw [if_pos h3] at hr
        subst hr
        exact ⟨fun p hp => by cases hp; exact .place2 h h1 (.inr h3), (fun e he => by cases he)⟩
      · rw [if_neg h3] at hr
        subst hr
        exact ⟨(fun p hp => by cases hp), fun e he => by cases he; exact ⟨rfl, h1, fun hc => hc.elim h2 h3⟩⟩

/-- What is found is where tracefs is. -/
theorem found_of (env : Env) (hd : ∀ es, env.entries = some es → ∀ e ∈ es, Dir e.mountPoint) (r : Except Err Bytes) (hr : getTracefsPath env = r) (hl : env.linux = true) :
    (∀ p, r = .ok p → Found env p) ∧ (∀ e, r = .error e → e = .notMounted ∧ Nothing env ∧ env.fsType place1 ≠ some 0x74726163 ∧
      ¬ (env.fsType place2 = some 0x74726163 ∨ env.fsType place2 = some 0x64626720)) := by
  unfold getTracefsPath at hr
  rw [if_neg (by rw [hl]; decide)] at hr
  cases he : env.entries with
  | none =>
    rw [he] at hr
    have hn : Nothing env := fun es h => by rw [he] at h; cases h
    exact ⟨(probe_spec env hn r hr).1, fun e h => ⟨((probe_spec env hn r hr).2 e h).1, hn, ((probe_spec env hn r hr).2 e h).2⟩⟩
  | some es =>
    rw [he] at hr
    dsimp only at hr
    have hd := hd es he
    unfold findInEntries at hr
    cases ht : findTracefs es with
    | some p =>
      rw [ht] at hr
      dsimp only at hr
      obtain ⟨a, b, e, rfl, h2, h3, rfl⟩ := findTracefs_some.mp ht
      rw [if_pos (dir_ne (hd e (by simp)))] at hr
      subst hr
      exact ⟨fun p hp => by cases hp; exact .mounted a b e he h2 h3, (fun e he => by cases he)⟩
    | none =>
      rw [ht] at hr
      dsimp only at hr
      have hno := findTracefs_none.mp ht
      rcases findDebugfs_spec (isDir := env.isDir) hd with ⟨h1, h2⟩ | ⟨a, b, e, h1, h2, h3, h4, h5, h6⟩
      · rw [h1, if_neg (by simp)] at hr
        have hn : Nothing env := fun es' h => by
          rw [he] at h; cases h
          exact fun e hm => ⟨hno e hm, h2 e hm⟩
        exact ⟨(probe_spec env hn r hr).1, fun e h => ⟨((probe_spec env hn r hr).2 e h).1, hn, ((probe_spec env hn r hr).2 e h).2⟩⟩
      · rw [if_pos h6, h5] at hr
        subst hr
        subst h1
        exact ⟨fun p hp => by cases hp; exact .debug a b e he hno h2 h3 h4, (fun e he => by cases he)⟩

theorem found_unique {env : Env} {p q : Bytes} (hp : Found env p) (hq : Found env q) : p = q := by
  have split : ∀ {P : Entry → Prop} {a b a' b' : List Entry} {e e' : Entry}, a ++ e :: b = a' ++ e' :: b' → P e → P e' → (∀ x ∈ a, ¬ P x) → (∀ x ∈ a', ¬ P x) → e = e' := by
    intro P a
    induction a with
    | nil =>
      intro b a' b' e e' h he he' _ h2
      cases a' with
      | nil => cases h; rfl
      | cons x a' => cases h; exact absurd he (h2 _ (by simp))
    | cons x a ih =>
      intro b a' b' e e' h he he' h1 h2
      cases a' with
      | nil => cases h; exact absurd he' (h1 _ (by simp))
      | cons y a' =>
        exact ih (List.cons.inj h).2 he he' (fun z hz => h1 z (List.mem_cons_of_mem _ hz)) (fun z hz => h2 z (List.mem_cons_of_mem _ hz))
  have mem : ∀ (a b : List Entry) (e : Entry), e ∈ a ++ e :: b := fun a b e => by simp
  cases hp with
  | mounted a b e h1 h2 h3 =>
    cases hq with
    | mounted a' b' e' k1 k2 k3 =>
      rw [h1] at k1
      rw [split (P := Mounts tracefs) (Option.some.inj k1) h2 k2 h3 k3]
    | debug a' b' e' k1 k2 _ _ _ => rw [h1] at k1; rw [← Option.some.inj k1] at k2; exact absurd h2 (k2 e (mem a b e))
    | place1 k _ => exact absurd h2 (k _ h1 e (mem a b e)).1
    | place2 k _ _ => exact absurd h2 (k _ h1 e (mem a b e)).1
  | debug a b e h1 h2 h3 h4 h5 =>
    cases hq with
    | mounted a' b' e' k1 k2 k3 => rw [k1] at h1; rw [← Option.some.inj h1] at h2; exact absurd k2 (h2 e' (mem a' b' e'))
    | debug a' b' e' k1 k2 k3 k4 k5 =>
      rw [h1] at k1
      rw [split (P := fun x => Mounts debugfs x ∧ env.isDir (below x.mountPoint tracing) = true) (Option.some.inj k1) ⟨h3, h4⟩ ⟨k3, k4⟩
        (fun x hx hc => by rw [h5 x hx hc.1] at hc; cases hc.2) (fun x hx hc => by rw [k5 x hx hc.1] at hc; cases hc.2)]
    | place1 k _ => rw [(k _ h1 e (mem a b e)).2 h3] at h4; cases h4
    | place2 k _ _ => rw [(k _ h1 e (mem a b e)).2 h3] at h4; cases h4
  | place1 h h1 =>
    cases hq with
    | mounted a' b' e' k1 k2 k3 => exact absurd k2 (h _ k1 e' (mem a' b' e')).1
    | debug a' b' e' k1 k2 k3 k4 k5 => rw [(h _ k1 e' (mem a' b' e')).2 k3] at k4; cases k4
    | place1 _ _ => rfl
    | place2 _ k _ => exact absurd h1 k
  | place2 h h1 h2 =>
    cases hq with
    | mounted a' b' e' k1 k2 k3 => exact absurd k2 (h _ k1 e' (mem a' b' e')).1
    | debug a' b' e' k1 k2 k3 k4 k5 => rw [(h _ k1 e' (mem a' b' e')).2 k3] at k4; cases k4
    | place1 _ k => exact absurd k h1
    | place2 _ _ _ => rfl

/-- **C116.** On Linux tracefs is found iff it is somewhere, and where it is; on other platforms it isn't found. -/
theorem found_exact (env : Env) (hd : ∀ es, env.entries = some es → ∀ e ∈ es, Dir e.mountPoint) :
    (env.linux = false → getTracefsPath env = .error .platform) ∧
    (env.linux = true → (∀ p, getTracefsPath env = .ok p ↔ Found env p) ∧ ((∀ p, ¬ Found env p) → getTracefsPath env = .error .notMounted)) := by
  refine ⟨fun h => by unfold getTracefsPath; rw [if_pos h], fun hl => ?_⟩
  obtain ⟨h1, h2⟩ := found_of env hd _ rfl hl
  have key : ∀ p, Found env p → getTracefsPath env = .ok p := by
    intro p hp
    cases hr : getTracefsPath env with
    | ok q => rw [found_unique hp (h1 q hr)]
    | error e =>
      obtain ⟨_, hn, k1, k2⟩ := h2 e hr
      cases hp with
      | mounted a' b' e' j1 j2 j3 => exact absurd j2 (hn _ j1 e' (by simp)).1
      | debug a' b' e' j1 j2 j3 j4 j5 => rw [(hn _ j1 e' (by simp)).2 j3] at j4; cases j4
      | place1 _ k => exact absurd k k1
      | place2 _ _ k => exact absurd k k2
  refine ⟨fun p => ⟨h1 p, key p⟩, fun hno => ?_⟩
  cases hr : getTracefsPath env with
  | ok q => exact absurd (h1 q hr) (hno q)
  | error e => rw [(h2 e hr).1]

/-- **C116.** What is found is an absolute path without "." and "..", so that the statements about `sanitizeTracefsPath` apply. -/
theorem found_dir (env : Env) (hd : ∀ es, env.entries = some es → ∀ e ∈ es, Dir e.mountPoint) (p : Bytes) (h : Found env p) : Dir p := by
  cases h with
  | mounted a b e h1 _ _ => exact hd _ h1 e (by simp)
  | debug a b e h1 _ _ _ _ => exact (below_eq (hd _ h1 e (by simp)) tracing_name).2.1
  | place1 => exact ⟨[[0x73, 0x79, 0x73], [0x6b, 0x65, 0x72, 0x6e, 0x65, 0x6c], tracing], by unfold Name; decide, by decide⟩
  | place2 => exact ⟨[[0x73, 0x79, 0x73], [0x6b, 0x65, 0x72, 0x6e, 0x65, 0x6c], [0x64, 0x65, 0x62, 0x75, 0x67], tracing], by unfold Name; decide, by decide⟩

/-! ## The files that are opened -/

theorem identifier_iff (s : Bytes) : Tracefs.validIdentifier s = true ↔ Identifier s := by
  rw [Tracefs.validIdentifier_iff]
  unfold Identifier
  have e1 : ∀ c : Byte, c = 0x5f#8 ↔ c.toNat = 0x5f := fun c => by rw [← BitVec.toNat_inj]; rfl
  have e2 : ∀ c : Byte, c = 0x2d#8 ↔ c.toNat = 0x2d := fun c => by rw [← BitVec.toNat_inj]; rfl
  simp only [e1, e2, TracefsSpec.Alnum]
  cases s with
  | nil => simp
  | cons c cs =>
    constructor
    · rintro ⟨_, _, h, h1, h2⟩
      cases h
      refine ⟨List.forall_mem_cons.mpr ⟨by omega, fun d hd => ?_⟩, c, rfl, by omega⟩
      have := h2 d hd
      omega
    · rintro ⟨h1, _, h, h2⟩
      cases h
      refine ⟨c, cs, rfl, by omega, fun d hd => ?_⟩
      have := h1 d (List.mem_cons_of_mem _ hd)
      omega

theorem identifier_name {s : Bytes} (h : Identifier s) : Name s := by
  obtain ⟨h1, c, h2, h3⟩ := h
  cases s with
  | nil => cases h2
  | cons x s =>
    cases h2
    refine ⟨by simp, ?_, ?_, ?_⟩
    · intro h; cases h; revert h3; decide
    · intro h; cases h; revert h3; decide
    · intro h; have := h1 _ h; revert this; decide

theorem path_inj {d e : List Bytes} (hd : ∀ c ∈ d, Name c) (he : ∀ c ∈ e, Name c) (h : path d = path e) : d = e := by
  have h1 := go_path hd []
  rw [h, go_path he []] at h1
  exact h1.symm

/-- "events" -/
def events : Bytes := [0x65, 0x76, 0x65, 0x6e, 0x74, 0x73]

/-- "id" -/
def idFile : Bytes := [0x69, 0x64]

/-- **C116.** `EventID` reads no file unless group and name are identifiers; then it reads exactly the file `events/group/name/id` of tracefs, and gives the number which it shows. -/
theorem eventID_exact {b : List Bytes} (hb : ∀ c ∈ b, Name c) (file : Bytes → Except Nat Bytes) (group name : Bytes) :
    (¬ (Identifier group ∧ Identifier name) → eventID (.ok (path b)) file group name = ([], .error .invalidName)) ∧
    (Identifier group → Identifier name → ∀ p, p = path (b ++ [[0x65, 0x76, 0x65, 0x6e, 0x74, 0x73], group, name, [0x69, 0x64]]) →
      (eventID (.ok (path b)) file group name).1 = [p] ∧
      (∀ v, (eventID (.ok (path b)) file group name).2 = .ok v ↔ Ebpf.Spec.OnceCache.Gives ([], p) (file p) (.ok v)) ∧
      (∀ e, (eventID (.ok (path b)) file group name).2 = .error e ↔ ∃ e', e = .read e' ∧ Ebpf.Spec.OnceCache.Gives ([], p) (file p) (.error e'))) := by
  constructor
  · intro h
    unfold eventID
    by_cases hg : Tracefs.validIdentifier group = false
    · rw [if_pos hg]
    · rw [if_neg hg]
      by_cases hn : Tracefs.validIdentifier name = false
      · rw [if_pos hn]
      · exact absurd ⟨(identifier_iff _).mp (by simpa using hg), (identifier_iff _).mp (by simpa using hn)⟩ h
  · rintro hg hn p rfl
    have hs := sanitize_names hb (es := [events, group, name, idFile]) (by
      simp only [List.forall_mem_cons]
      exact ⟨⟨by decide, by decide, by decide, by decide⟩, identifier_name hg, identifier_name hn, ⟨by decide, by decide, by decide, by decide⟩, by simp⟩)
    unfold eventID
    rw [if_neg (by rw [(identifier_iff _).mpr hg]; decide), if_neg (by rw [(identifier_iff _).mpr hn]; decide)]
    rw [show sanitize (.ok (path b)) [[0x65, 0x76, 0x65, 0x6e, 0x74, 0x73], group, name, [0x69, 0x64]] = _ from hs]
    dsimp only
    refine ⟨rfl, fun v => ?_, fun e => ?_⟩
    · rw [← OnceCache.read_exact]
      show (match OnceCache.readUint64 [] (file (path (b ++ [events, group, name, idFile]))) with | .error e => Except.error (Err.read e) | .ok v => .ok v) = _ ↔
        OnceCache.readUint64 [] (file (path (b ++ [events, group, name, idFile]))) = _
      cases OnceCache.readUint64 [] (file (path (b ++ [events, group, name, idFile]))) <;> simp
    · simp only [← OnceCache.read_exact]
      show (match OnceCache.readUint64 [] (file (path (b ++ [events, group, name, idFile]))) with | .error e => Except.error (Err.read e) | .ok v => .ok v) = _ ↔
        ∃ e', e = .read e' ∧ OnceCache.readUint64 [] (file (path (b ++ [events, group, name, idFile]))) = _
      cases OnceCache.readUint64 [] (file (path (b ++ [events, group, name, idFile]))) <;> simp [eq_comm]

/-- **C116.** Different events have different files. -/
theorem eventID_distinct {b : List Bytes} (hb : ∀ c ∈ b, Name c) (file : Bytes → Except Nat Bytes) {g n g' n' : Bytes} (hg : Identifier g) (hn : Identifier n)
    (hg' : Identifier g') (hn' : Identifier n') (h : (eventID (.ok (path b)) file g n).1 = (eventID (.ok (path b)) file g' n').1) : g = g' ∧ n = n' := by
  rw [((eventID_exact hb file g n).2 hg hn _ rfl).1, ((eventID_exact hb file g' n').2 hg' hn' _ rfl).1] at h
  have names : ∀ {g n : Bytes}, Identifier g → Identifier n → ∀ c ∈ b ++ [events, g, n, idFile], Name c := by
    intro g n hg hn c hc
    rcases List.mem_append.mp hc with hc | hc
    · exact hb c hc
    · simp only [List.mem_cons, List.not_mem_nil, or_false] at hc
      rcases hc with rfl | rfl | rfl | rfl
      · exact ⟨by decide, by decide, by decide, by decide⟩
      · exact identifier_name hg
      · exact identifier_name hn
      · exact ⟨by decide, by decide, by decide, by decide⟩
  have := path_inj (names hg hn) (names hg' hn') (List.cons.inj h).1
  simp only [List.append_cancel_left_eq, List.cons.injEq, and_true, true_and] at this
  exact this

/-- **C116.** The commands are written to the file `kprobe_events` or `uprobe_events` of tracefs. -/
theorem eventsFile_exact {b : List Bytes} (hb : ∀ c ∈ b, Name c) :
    eventsFile (.ok (path b)) false = .ok (path (b ++ [[0x6b, 0x70, 0x72, 0x6f, 0x62, 0x65, 0x5f, 0x65, 0x76, 0x65, 0x6e, 0x74, 0x73]])) ∧
    eventsFile (.ok (path b)) true = .ok (path (b ++ [[0x75, 0x70, 0x72, 0x6f, 0x62, 0x65, 0x5f, 0x65, 0x76, 0x65, 0x6e, 0x74, 0x73]])) := by
  constructor
  · exact sanitize_names hb (es := [[0x6b, 0x70, 0x72, 0x6f, 0x62, 0x65, 0x5f, 0x65, 0x76, 0x65, 0x6e, 0x74, 0x73]]) (by simp only [List.forall_mem_cons]; exact ⟨⟨by decide, by decide, by decide, by decide⟩, by simp⟩)
  · exact sanitize_names hb (es := [[0x75, 0x70, 0x72, 0x6f, 0x62, 0x65, 0x5f, 0x65, 0x76, 0x65, 0x6e, 0x74, 0x73]]) (by simp only [List.forall_mem_cons]; exact ⟨⟨by decide, by decide, by decide, by decide⟩, by simp⟩)

/-- **C116.** If tracefs isn't found no file is opened, and the reason is kept. -/
theorem nowhere (e : Err) (file : Bytes → Except Nat Bytes) (group name : Bytes) (uprobe : Bool) :
    (eventID (.error e) file group name).1 = [] ∧ (Identifier group → Identifier name → (eventID (.error e) file group name).2 = .error e) ∧
    eventsFile (.error e) uprobe = .error e := by
  refine ⟨?_, fun hg hn => ?_, rfl⟩
  · unfold eventID
    split
    · rfl
    · split <;> rfl
  · unfold eventID
    rw [if_neg (by rw [(identifier_iff _).mpr hg]; decide), if_neg (by rw [(identifier_iff _).mpr hn]; decide)]
    rfl

/-! ## The hypotheses are met -/

/-- /t -/
def exampleBase : List Bytes := [[0x74]]

example : ∀ c ∈ exampleBase, Name c := by unfold Name; decide

/-- A path that leads beside tracefs is accepted if the name begins in the same way: "../t2/x"; "../u" and "/../.." aren't taken outside. -/
example : sanitize (.ok (path exampleBase)) [[0x2e, 0x2e, 0x2f, 0x74, 0x32, 0x2f, 0x78]] = .ok [0x2f, 0x74, 0x32, 0x2f, 0x78] ∧
    sanitize (.ok (path exampleBase)) [[0x2e, 0x2e, 0x2f, 0x75]] = .error .escape ∧
    sanitize (.ok (path exampleBase)) [[], [0x2f, 0x2e, 0x2e, 0x2f, 0x2e, 0x2e], [0x78]] = .ok [0x2f, 0x74, 0x2f, 0x78] := ⟨by rfl, by rfl, by rfl⟩

/-- The third event of an example: "id" shows 7. -/
example : eventID (.ok (path exampleBase)) (fun _ => .ok [0x37, 0x0a]) [0x61] [0x62] =
    ([[0x2f, 0x74, 0x2f, 0x65, 0x76, 0x65, 0x6e, 0x74, 0x73, 0x2f, 0x61, 0x2f, 0x62, 0x2f, 0x69, 0x64]], .ok 7) := by decide

/-- A bind mount of a part of tracefs isn't used, a debugfs without tracing neither; a debugfs with it is. -/
example : getTracefsPath ⟨true, some [⟨[0x2f, 0x61], [0x2f, 0x78], tracefs⟩, ⟨[0x2f, 0x62], [0x2f], debugfs⟩, ⟨[0x2f, 0x63], [0x2f], debugfs⟩], fun p => p = [0x2f, 0x63] ++ 0x2f :: tracing, fun _ => none⟩ =
    .ok ([0x2f, 0x63] ++ 0x2f :: tracing) := by rfl

end Ebpf.TracefsPath
