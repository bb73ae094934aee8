import Verif.Props.CoreCompat
/-!
# C57: `bpf_core_type_matches`
-/
namespace Ebpf.Btf
open Ebpf.BtfSpec
variable {R : Type}

/-! ## Names and forward declarations -/

theorem namesMatch_iff (a b : Bytes) : namesMatch a b = true ↔ NamesAgree a b := by
  obtain ⟨a1, a2, _⟩ := essentialName_exact a
  obtain ⟨b1, b2, _⟩ := essentialName_exact b
  have ex : ∀ s : Bytes, (∀ e, Flavoured s e → newEssentialName s = e) → ((∀ e, ¬ Flavoured s e) → newEssentialName s = s) →
      ∀ e, (Flavoured s e ∨ ((∀ x, ¬ Flavoured s x) ∧ e = s)) ↔ e = newEssentialName s := by
    intro s h1 h2 e
    constructor
    · rintro (h | ⟨h, rfl⟩)
      · exact (h1 e h).symm
      · exact (h2 h).symm
    · rintro rfl
      by_cases h : ∃ x, Flavoured s x
      · obtain ⟨x, hx⟩ := h; rw [h1 x hx]; exact Or.inl hx
      · refine Or.inr ⟨fun x hx => h ⟨x, hx⟩, h2 (fun x hx => h ⟨x, hx⟩)⟩
  unfold namesMatch NamesAgree
  by_cases ha : a = []
  · simp [ha]
  · by_cases hb : b = []
    · simp [hb]
    · simp only [ha, hb, or_self, if_false, false_or, decide_eq_true_eq]
      simp only [ex a a1 a2, ex b b1 b2]
      constructor
      · intro h; exact ⟨_, rfl, h⟩
      · rintro ⟨e, h1, h2⟩; rw [← h1, ← h2]

theorem steps_mono {α : Type} {r s : α → α → Prop} (h : ∀ a b, r a b → s a b) : ∀ {d a b}, Steps r d a b → Steps s d a b := by
  intro d a b hs
  induction hs with
  | refl a => exact .refl a
  | step h1 _ ih => exact .step (h _ _ h1) ih

theorem peel_some (g : Graph R) (a b : R) (h : Peel g a b) : (g a).peel? = some b := by
  cases h with
  | qual h => cases h <;> simp [*, Node.peel?, Node.qualify?]
  | typedef h => simp [h, Node.peel?]

/-- `As` for a kind that is neither qualifier nor typedef looks at the underlying type. -/
theorem asType_underlies (g : Graph R) (want : Node R → Bool) (hw : ∀ n, want n = true → n.peel? = none) (t u : R) :
    asType g want t = some u ↔ Underlies g t u ∧ want (g u) = true := by
  rw [as_exact]
  constructor
  · rintro ⟨d, h1, h2, h3⟩
    refine ⟨⟨d, h1, steps_mono (fun _ _ h => h.1) h2, ?_⟩, h3⟩
    intro v hv
    have := peel_some g u v hv
    rw [hw _ h3] at this; cases this
  · rintro ⟨⟨d, h1, h2, _⟩, h3⟩
    refine ⟨d, h1, steps_mono (fun a b h => ⟨h, ?_⟩) h2, h3⟩
    by_cases hc : want (g a) = true
    · have := peel_some g a b h
      rw [hw _ hc] at this; cases this
    · simpa using hc

def isStruct (n : Node R) : Bool := match n with | .struct .. => true | _ => false
def isUnion (n : Node R) : Bool := match n with | .union .. => true | _ => false
def isFwd (n : Node R) : Bool := match n with | .fwd .. => true | _ => false

theorem fwdMatches_iff (g : Graph R) (k : Int) (t : R) : fwdMatches g k t = true ↔
    ∃ v, Underlies g t v ∧ ((k = 0 ∧ isStruct (g v) = true) ∨ (k = 1 ∧ isUnion (g v) = true)) := by
  have hs := asType_underlies g isStruct (by intro n; cases n <;> simp [isStruct, Node.peel?, Node.qualify?]) t
  have hu := asType_underlies g isUnion (by intro n; cases n <;> simp [isUnion, Node.peel?, Node.qualify?]) t
  have e : fwdMatches g k t = ((match asType g isStruct t with | some _ => k == 0 | none => false) ||
      (match asType g isUnion t with | some _ => k == 1 | none => false)) := rfl
  rw [e, Bool.or_eq_true]
  constructor
  · rintro (h | h)
    · cases h1 : asType g isStruct t with
      | none => simp [h1] at h
      | some v => simp [h1] at h; obtain ⟨h2, h3⟩ := (hs v).1 h1; exact ⟨v, h2, Or.inl ⟨h, h3⟩⟩
    · cases h1 : asType g isUnion t with
      | none => simp [h1] at h
      | some v => simp [h1] at h; obtain ⟨h2, h3⟩ := (hu v).1 h1; exact ⟨v, h2, Or.inr ⟨h, h3⟩⟩
  · rintro ⟨v, h1, ⟨h2, h3⟩ | ⟨h2, h3⟩⟩
    · left; rw [(hs v).2 ⟨h1, h3⟩]; simpa using h2
    · right; rw [(hu v).2 ⟨h1, h3⟩]; simpa using h2

theorem fwdOf_iff (g : Graph R) (a b : R) :
    (match asType g isFwd a with
     | some f => (match g f with | .fwd _ k => fwdMatches g k b | _ => false)
     | none => false) = true ↔ FwdOf g a b := by
  have hf := asType_underlies g isFwd (by intro n; cases n <;> simp [isFwd, Node.peel?, Node.qualify?]) a
  constructor
  · intro h
    cases h1 : asType g isFwd a with
    | none => simp [h1] at h
    | some f =>
      obtain ⟨h2, h3⟩ := (hf f).1 h1
      rw [h1] at h
      cases hg : g f <;> simp [hg, isFwd] at h3
      next n k =>
      simp only [hg] at h
      obtain ⟨v, h4, h5⟩ := (fwdMatches_iff g k b).1 h
      refine ⟨f, v, n, k, h2, h4, hg, ?_⟩
      rcases h5 with ⟨rfl, h5⟩ | ⟨rfl, h5⟩
      · left; cases hv : g v <;> simp [hv, isStruct] at h5; exact ⟨rfl, _, _, _, _, rfl⟩
      · right; cases hv : g v <;> simp [hv, isUnion] at h5; exact ⟨rfl, _, _, _, _, rfl⟩
  · rintro ⟨f, v, n, k, h1, h2, h3, h4⟩
    rw [(hf f).2 ⟨h1, by simp [h3, isFwd]⟩]
    simp only [h3]
    rw [fwdMatches_iff]
    refine ⟨v, h2, ?_⟩
    rcases h4 with ⟨rfl, _, _, _, _, h4⟩ | ⟨rfl, _, _, _, _, h4⟩
    · left; simp [h4, isStruct]
    · right; simp [h4, isUnion]

theorem ptrFwd_iff (g : Graph R) (a b : R) : ptrFwd g a b = true ↔ FwdOf g a b ∨ FwdOf g b a := by
  rw [← fwdOf_iff g a b, ← fwdOf_iff g b a, ← Bool.or_eq_true]
  rfl

/-! ## Matching is a coinductive check -/

def matchPre (g : Graph R) (l t : R) : Pre R :=
  match underlyingType g l, underlyingType g t with
  | some u, some v =>
    if namesMatch (g u).name (g v).name = false then .fail .incompatible
    else if (g u).kindTag ≠ (g v).kindTag then .fail .incompatible else .pair u v
  | none, none => .fail .unsupported
  | _, _ => .fail .incompatible

def memberPlan (bs : List (Member R)) (m : Member R) : Ob R :=
  match lastMember bs m.name with
  | none => .fail .incompatible
  | some tm => .check m.type tm.type

def matchPlan (g : Graph R) (a b : Node R) : List (Ob R) :=
  match a, b with
  | .void, _ => []
  | .fwd _ ka, .fwd _ kb => if kb ≠ ka then [.fail .incompatible] else []
  | .enum _ sa _ as, .enum _ sb _ bs => if enumsMatch sa as sb bs then [] else [.fail .incompatible]
  | .struct _ _ as _, .struct _ _ bs _ => if as.length > bs.length then [.fail .incompatible] else as.map (memberPlan bs)
  | .union _ _ as _, .union _ _ bs _ => if as.length > bs.length then [.fail .incompatible] else as.map (memberPlan bs)
  | .int _ sa ea, .int _ sb eb => if encodingMatches sa ea sb eb then [] else [.fail .incompatible]
  | .ptr a, .ptr b => if ptrFwd g a b then [] else [.check a b]
  | .array _ a n, .array _ b m => if n ≠ m then [.fail .incompatible] else [.check a b]
  | .funcProto r ps, .funcProto r' ps' =>
    if ps.length ≠ ps'.length then [.fail .incompatible] else (pairs ps ps').map (fun p => .check p.1 p.2) ++ [.check r r']
  | _, _ => [.fail .unsupported]

theorem runPlan_members (f : R → R → List (R × R) → Verdict R) (bs : List (Member R)) : ∀ (as : List (Member R)) vis,
    runPlan f (as.map (memberPlan bs)) vis = checkMembers f bs as vis
  | [], vis => rfl
  | m :: as, vis => by
    simp only [List.map_cons, checkMembers]
    unfold memberPlan
    cases lastMember bs m.name with
    | none => rfl
    | some tm =>
      simp only [runPlan]
      cases f m.type tm.type vis with
      | none => rfl
      | some p =>
        obtain ⟨r, v⟩ := p
        cases r with
        | error e => rfl
        | ok x => exact runPlan_members f bs as v

theorem runPlan_append_one (f : R → R → List (R × R) → Verdict R) (a b : R) : ∀ (l : List (R × R)) vis,
    runPlan f (l.map (fun p => .check p.1 p.2) ++ [.check a b]) vis =
      match checkPairs f l vis with
      | some (.ok (), vis) => f a b vis
      | r => r
  | [], vis => by simp only [List.map_nil, List.nil_append, checkPairs]; exact runPlan_one f a b vis
  | (x, y) :: l, vis => by
    simp only [List.map_cons, List.cons_append, runPlan, checkPairs]
    cases f x y vis with
    | none => rfl
    | some p =>
      obtain ⟨r, v⟩ := p
      cases r with
      | error e => rfl
      | ok z => exact runPlan_append_one f a b l v

theorem runPlan_ite (f : R → R → List (R × R) → Verdict R) (c : Prop) [Decidable c] (x y : List (Ob R)) (vis : List (R × R)) :
    runPlan f (if c then x else y) vis = if c then runPlan f x vis else runPlan f y vis := by
  split <;> rfl

variable [DecidableEq R]

theorem typesMatch_walk (g : Graph R) : ∀ (k : Nat) (l t : R) (vis : List (R × R)),
    typesMatch g k l t vis = walk (matchPre g) (fun u v => matchPlan g (g u) (g v)) k l t vis
  | 0, _, _, _ => rfl
  | k + 1, l, t, vis => by
    have ih : typesMatch g k = walk (matchPre g) (fun u v => matchPlan g (g u) (g v)) k := by
      funext a b vis; exact typesMatch_walk g k a b vis
    unfold typesMatch walk
    rw [← ih]
    cases hu : underlyingType g l with
    | none => cases hv : underlyingType g t <;> simp [matchPre, hu, hv]
    | some u =>
      cases hv : underlyingType g t with
      | none => simp [matchPre, hu, hv]
      | some v =>
        simp only
        by_cases hn : namesMatch (g u).name (g v).name = false
        · simp [hn, matchPre, hu, hv]
        by_cases hk : (g u).kindTag ≠ (g v).kindTag
        · simp [hk, hn, matchPre, hu, hv]
        · rw [show matchPre g l t = .pair u v by simp [hk, hn, matchPre, hu, hv]]
          simp only
          rw [if_neg hn, if_neg hk]
          by_cases hm : (u, v) ∈ vis
          · simp [hm]
          · simp only [hm, if_false]
            generalize (u, v) :: vis = vis
            generalize typesMatch g k = f
            generalize g u = a at hk ⊢
            generalize g v = b at hk ⊢
            cases a <;> cases b <;> simp only [Node.kindTag, Nat.reduceEqDiff, ne_eq, not_true, not_false_eq_true] at hk <;>
              simp only [matchPlan] <;>
              first
              | rfl
              | (simp only [runPlan_ite, runPlan_one, runPlan_members, runPlan_append_one]; rfl)

/-! ## The checker respects exactly the consistent relations -/

omit [DecidableEq R] in
theorem encodingMatches_iff (s : BitVec 32) (e : BitVec 8) (s' : BitVec 32) (e' : BitVec 8) :
    encodingMatches s e s' e' = true ↔ s = s' ∧ (e = 1 ↔ e' = 1) := by
  simp only [encodingMatches, Bool.and_eq_true, beq_iff_eq]
  constructor
  · rintro ⟨h1, h2⟩; refine ⟨h1, ?_⟩
    have := congrArg (· = true) h2
    simpa using this
  · rintro ⟨h1, h2⟩; refine ⟨h1, ?_⟩
    by_cases h : e = 1
    · simp [h, h2.1 h]
    · have : e' ≠ 1 := fun h' => h (h2.2 h')
      rw [beq_eq_false_iff_ne.2 h, beq_eq_false_iff_ne.2 this]

omit [DecidableEq R] in
theorem enumsMatch_iff (s : BitVec 32) (vs : List EnumValue) (s' : BitVec 32) (vs' : List EnumValue) :
    enumsMatch s vs s' vs' = true ↔ s = s' ∧ vs.length ≤ vs'.length ∧ ∀ v ∈ vs, ∃ w ∈ vs', NamesAgree v.name w.name := by
  simp [enumsMatch, namesMatch_iff, and_assoc]

omit [DecidableEq R] in
theorem lastMember_some {bs : List (Member R)} {n : Bytes} {m : Member R} (h : lastMember bs n = some m) : m ∈ bs ∧ m.name = n := by
  unfold lastMember at h
  have h1 := List.mem_of_find?_eq_some h
  have h2 := List.find?_some h
  exact ⟨by simpa using h1, by simpa using h2⟩

omit [DecidableEq R] in
theorem lastMember_unique {bs : List (Member R)} (hu : (bs.map (·.name)).Nodup) {m : Member R} (hm : m ∈ bs) :
    lastMember bs m.name = some m := by
  cases h : lastMember bs m.name with
  | none =>
    unfold lastMember at h
    rw [List.find?_eq_none] at h
    exact absurd (by simp) (h m (by simpa using hm))
  | some m' =>
    obtain ⟨h1, h2⟩ := lastMember_some h
    congr 1
    clear h
    induction bs with
    | nil => simp at hm
    | cons x bs ih =>
      simp only [List.map_cons, List.nodup_cons, List.mem_map, not_exists, not_and] at hu
      rcases List.mem_cons.1 hm with rfl | hm'
      · rcases List.mem_cons.1 h1 with rfl | h1
        · rfl
        · exact absurd h2 (hu.1 m' h1)
      · rcases List.mem_cons.1 h1 with rfl | h1
        · exact absurd h2.symm (hu.1 m hm')
        · exact ih hu.2 hm' h1

omit [DecidableEq R] in
theorem members_sound (S : R → R → Prop) (as bs : List (Member R))
    (h : ∀ o ∈ as.map (memberPlan bs), ∃ x y, o = .check x y ∧ S x y) : ∀ m ∈ as, ∃ m' ∈ bs, m.name = m'.name ∧ S m.type m'.type := by
  intro m hm
  obtain ⟨x, y, h1, h2⟩ := h (memberPlan bs m) (List.mem_map_of_mem hm)
  unfold memberPlan at h1
  cases hl : lastMember bs m.name with
  | none => rw [hl] at h1; cases h1
  | some tm =>
    rw [hl] at h1; injection h1 with h3 h4
    obtain ⟨h5, h6⟩ := lastMember_some hl
    exact ⟨tm, h5, h6.symm, by rw [h3, h4]; exact h2⟩

omit [DecidableEq R] in
theorem members_complete (S : R → R → Prop) (as bs : List (Member R)) (ha : (as.map (·.name)).Nodup) (hb : (bs.map (·.name)).Nodup)
    (h : ∀ m ∈ as, ∃ m' ∈ bs, m.name = m'.name ∧ S m.type m'.type) :
    ¬ as.length > bs.length ∧ ∀ o ∈ as.map (memberPlan bs), ∃ x y, o = .check x y ∧ S x y := by
  constructor
  · have := nodup_length_le (as.map (·.name)) (bs.map (·.name)) ha (by
      intro n hn
      obtain ⟨m, hm, rfl⟩ := List.mem_map.1 hn
      obtain ⟨m', hm', h1, _⟩ := h m hm
      rw [h1]; exact List.mem_map_of_mem hm')
    simpa using this
  · intro o ho
    obtain ⟨m, hm, rfl⟩ := List.mem_map.1 ho
    obtain ⟨m', hm', h1, h2⟩ := h m hm
    unfold memberPlan
    rw [h1, lastMember_unique hb hm']
    exact ⟨_, _, rfl, h2⟩

omit [DecidableEq R] in
theorem matchPlan_sound (g : Graph R) (S : R → R → Prop) (a b : Node R) (hn : namesMatch a.name b.name = true)
    (hk : a.kindTag = b.kindTag) (h : ∀ o ∈ matchPlan g a b, ∃ x y, o = .check x y ∧ S x y) : MatchShape g S a b := by
  rw [namesMatch_iff] at hn
  cases a <;> cases b <;> simp only [Node.kindTag, Nat.reduceEqDiff] at hk <;> simp only [matchPlan] at h
  case void.void => exact .void
  case int.int =>
    split at h
    · next he => obtain ⟨rfl, h2⟩ := (encodingMatches_iff ..).1 he; exact .int hn h2
    · simp at h
  case struct.struct =>
    split at h
    · simp at h
    · exact .struct hn (members_sound S _ _ h)
  case union.union =>
    split at h
    · simp at h
    · exact .union hn (members_sound S _ _ h)
  case enum.enum =>
    split at h
    · next he => obtain ⟨rfl, h2, h3⟩ := (enumsMatch_iff ..).1 he; exact .enum hn h2 h3
    · simp at h
  case fwd.fwd =>
    split at h
    · simp at h
    · next he => simp at he; subst he; exact .fwd hn
  case ptr.ptr =>
    split at h
    · next he =>
      rcases (ptrFwd_iff ..).1 he with he | he
      · exact .ptr (Or.inl he)
      · exact .ptr (Or.inr (Or.inl he))
    · simp at h; exact .ptr (by grind)
  case array.array =>
    split at h
    · simp at h
    · next he => simp at he; subst he; simp at h; exact .array (by grind)
  case funcProto.funcProto r ps r' ps' =>
    split at h
    · simp at h
    · next hl =>
      simp only [List.mem_append, List.mem_singleton] at h
      obtain ⟨x, y, h1, h2⟩ := h (.check r r') (Or.inr rfl)
      injection h1 with h3 h4
      exact .funcProto (by rw [h3, h4]; exact h2) (by simpa using hl) ((mem_pairs ps ps' S).1 (fun o ho => h o (Or.inl ho)))
  all_goals simp at h

omit [DecidableEq R] in
theorem namesAgree_nil : NamesAgree [] [] := Or.inl rfl

omit [DecidableEq R] in
theorem matchPlan_complete (g : Graph R) (S : R → R → Prop) (a b : Node R) (ha : ∀ ms, a.members? = some ms → (ms.map (·.name)).Nodup)
    (hb : ∀ ms, b.members? = some ms → (ms.map (·.name)).Nodup) (h : MatchShape g S a b) :
    namesMatch a.name b.name = true ∧ a.kindTag = b.kindTag ∧ ((∀ o ∈ matchPlan g a b, ∃ x y, o = .check x y ∧ S x y)) := by
  rw [namesMatch_iff]
  cases h with
  | void => simp [Node.kindTag, matchPlan, Node.name, namesAgree_nil]
  | fwd h => exact ⟨h, rfl, by simp [matchPlan]⟩
  | int h1 h2 => exact ⟨h1, rfl, by simp only [matchPlan]; rw [if_pos ((encodingMatches_iff ..).2 ⟨rfl, h2⟩)]; simp⟩
  | enum h1 h2 h3 => exact ⟨h1, rfl, by simp only [matchPlan]; rw [if_pos ((enumsMatch_iff ..).2 ⟨rfl, h2, h3⟩)]; simp⟩
  | struct h1 h2 =>
    obtain ⟨h3, h4⟩ := members_complete S _ _ (ha _ rfl) (hb _ rfl) h2
    exact ⟨h1, rfl, by simp only [matchPlan]; rw [if_neg h3]; exact h4⟩
  | union h1 h2 =>
    obtain ⟨h3, h4⟩ := members_complete S _ _ (ha _ rfl) (hb _ rfl) h2
    exact ⟨h1, rfl, by simp only [matchPlan]; rw [if_neg h3]; exact h4⟩
  | @ptr a b h =>
    refine ⟨namesAgree_nil, rfl, ?_⟩
    simp only [matchPlan]
    by_cases hp : ptrFwd g a b = true
    · rw [if_pos hp]; simp
    · rw [if_neg hp]
      have : S a b := by
        rcases h with h | h | h
        · exact absurd ((ptrFwd_iff ..).2 (Or.inl h)) hp
        · exact absurd ((ptrFwd_iff ..).2 (Or.inr h)) hp
        · exact h
      simp; exact ⟨_, _, ⟨rfl, rfl⟩, this⟩
  | array h => exact ⟨namesAgree_nil, rfl, by simp [matchPlan]; exact ⟨_, _, ⟨rfl, rfl⟩, h⟩⟩
  | @funcProto r ps r' ps' h1 hl h2 =>
    refine ⟨namesAgree_nil, rfl, ?_⟩
    simp only [matchPlan, hl, ne_eq, not_true, if_false, List.mem_append, List.mem_singleton]
    rintro o (ho | rfl)
    · exact (mem_pairs ps ps' S).2 h2 o ho
    · exact ⟨_, _, rfl, h1⟩

omit [DecidableEq R] in
theorem match_safe_sound (g : Graph R) (S : R → R → Prop)
    (h : Safe (matchPre g) (fun u v => matchPlan g (g u) (g v)) S) : MatchConsistent g S := by
  intro a b hab
  obtain ⟨u, v, h1, h2⟩ := h a b hab
  unfold matchPre at h1
  split at h1 <;> try cases h1
  next u' v' hu hv =>
    split at h1 <;> try cases h1
    next hn =>
    split at h1 <;> try cases h1
    next hk =>
    exact ⟨_, _, (underlies_iff g a _).1 hu, (underlies_iff g b _).1 hv, matchPlan_sound g S _ _ (by simpa using hn) (by simpa using hk) h2⟩

omit [DecidableEq R] in
theorem match_safe_complete (g : Graph R) (hg : UniqueMembers g) (S : R → R → Prop) (h : MatchConsistent g S) :
    Safe (matchPre g) (fun u v => matchPlan g (g u) (g v)) S := by
  intro a b hab
  obtain ⟨u, v, hu, hv, hs⟩ := h a b hab
  obtain ⟨h1, h2, h3⟩ := matchPlan_complete g S _ _ (hg u) (hg v) hs
  refine ⟨u, v, ?_, h3⟩
  simp [matchPre, (underlies_iff g a u).2 hu, (underlies_iff g b v).2 hv, h1, h2]

/-- C57: types that are reported to match do match. -/
theorem typesMatch_sound (g : Graph R) (k : Nat) (a b : R) (vis : List (R × R))
    (h : typesMatch g k a b [] = some (.ok (), vis)) : Matches g a b := by
  rw [typesMatch_walk] at h
  obtain ⟨S, h1, h2⟩ := walk_accepts _ _ k a b vis h
  exact ⟨S, match_safe_sound g S h1, h2⟩

/-- C57: unless a struct or union has two members of the same name (two anonymous ones, say), the verdict is exact. -/
theorem typesMatch_exact_partial (g : Graph R) (hg : UniqueMembers g) (k : Nat) (a b : R) (r : Except CompatErr Unit) (vis : List (R × R))
    (h : typesMatch g k a b [] = some (r, vis)) : r = .ok () ↔ Matches g a b := by
  constructor
  · rintro rfl; exact typesMatch_sound g k a b vis h
  · rintro ⟨S, h1, h2⟩
    rw [typesMatch_walk] at h
    exact walk_safe _ _ S (match_safe_complete g hg S h1) k a b [] r vis h2 h

/-- C57: matching terminates on every finite type graph. -/
theorem typesMatch_terminates (g : Graph R) (U : List R) (hU : ClosedSet g U) (a b : R) (ha : a ∈ U) (hb : b ∈ U) (k : Nat)
    (hk : U.length * U.length < k) : ∃ r vis, typesMatch g k a b [] = some (r, vis) := by
  rw [typesMatch_walk]
  refine walk_total _ _ U ?_ ?_ k a b [] ha hb ?_
  · intro a ha b hb u v h
    unfold matchPre at h
    split at h <;> try cases h
    next u' v' hu hv =>
      split at h <;> try cases h
      split at h <;> try cases h
      exact ⟨closed_underlies hU ha ((underlies_iff g a _).1 hu), closed_underlies hU hb ((underlies_iff g b _).1 hv)⟩
  · intro u hu v hv x y h
    have h1 := hU u hu
    have h2 := hU v hv
    have hmem : ∀ as bs : List (Member R), (∀ m ∈ as, m.type ∈ U) → (∀ m ∈ bs, m.type ∈ U) → Ob.check x y ∈ as.map (memberPlan bs) → x ∈ U ∧ y ∈ U := by
      intro as bs has hbs hm
      obtain ⟨m, hm, he⟩ := List.mem_map.1 hm
      unfold memberPlan at he
      cases hl : lastMember bs m.name with
      | none => rw [hl] at he; cases he
      | some tm =>
        rw [hl] at he; injection he with h3 h4
        rw [← h3, ← h4]; exact ⟨has m hm, hbs tm (lastMember_some hl).1⟩
    generalize g u = a at h h1
    generalize g v = b at h h2
    unfold matchPlan at h
    split at h
    case h_1 => simp at h
    case h_4 => split at h; (simp at h); exact hmem _ _ (by simpa [refs] using h1) (by simpa [refs] using h2) h
    case h_5 => split at h; (simp at h); exact hmem _ _ (by simpa [refs] using h1) (by simpa [refs] using h2) h
    case h_9 r ps r' ps' =>
      split at h
      · simp at h
      · simp only [List.mem_append, List.mem_singleton, Ob.check.injEq] at h
        simp [refs] at h1 h2
        rcases h with h | ⟨rfl, rfl⟩
        · obtain ⟨q, h3, h4⟩ := List.mem_map.1 h
          injection h4 with h5 h6
          obtain ⟨⟨p, hp, h7⟩, p', hp', h8⟩ := pairs_mem (x := q.1) (y := q.2) h3
          rw [← h5, ← h6, ← h7, ← h8]
          exact ⟨h1.2 _ hp, h2.2 _ hp'⟩
        · exact ⟨h1.1, h2.1⟩
    all_goals try (split at h)
    all_goals simp [refs] at h h1 h2
    all_goals grind
  · refine Nat.lt_of_le_of_lt ?_ hk
    unfold fresh
    refine Nat.le_trans (List.length_filter_le ..) ?_
    simp [List.length_flatMap, List.map_const']


/-! ## Where the verdict differs from the documented rules -/

/-- C57: a struct with two anonymous unions doesn't match itself: only the last anonymous member of the target is considered. -/
theorem anonymous_members_mismatch :
    let g : Graph Nat := fun r => match r with
      | 0 => .struct (lit "s") 8 [⟨[], 1, 0, 0, []⟩, ⟨[], 2, 32, 0, []⟩] []
      | 1 => .union [] 4 [⟨lit "a", 3, 0, 0, []⟩] []
      | 2 => .union [] 4 [⟨lit "b", 3, 0, 0, []⟩] []
      | _ => .int (lit "int") 4 1
    Matches g 0 0 ∧ ∃ vis, typesMatch g 100 0 0 [] = some (.error .incompatible, vis) := by
  refine ⟨⟨fun a b => a = b ∧ a < 4, ?_, rfl, by decide⟩, _, rfl⟩
  rintro a b ⟨rfl, ha⟩
  have hu : ∀ a, (∀ v, ¬ Peel (fun r => match r with
      | 0 => .struct (lit "s") 8 [⟨[], 1, 0, 0, []⟩, ⟨[], 2, 32, 0, []⟩] []
      | 1 => .union [] 4 [⟨lit "a", 3, 0, 0, []⟩] []
      | 2 => .union [] 4 [⟨lit "b", 3, 0, 0, []⟩] []
      | _ => .int (lit "int") 4 1 : Graph Nat) a v) := by
    intro a v h
    have := peel_some _ _ _ h
    revert this
    rcases a with _ | _ | _ | a <;> simp [Node.peel?, Node.qualify?]
  refine ⟨a, a, ⟨0, by decide, .refl a, hu a⟩, ⟨0, by decide, .refl a, hu a⟩, ?_⟩
  have hn : ∀ n, NamesAgree n n := fun n => (namesMatch_iff n n).1 (by simp [namesMatch])
  rcases a with _ | _ | _ | _ | a
  · refine .struct (hn _) ?_
    intro m hm; exact ⟨m, hm, rfl, rfl, by simp at hm; rcases hm with rfl | rfl <;> decide⟩
  · refine .union (hn _) ?_
    intro m hm; exact ⟨m, hm, rfl, rfl, by simp at hm; subst hm; decide⟩
  · refine .union (hn _) ?_
    intro m hm; exact ⟨m, hm, rfl, rfl, by simp at hm; subst hm; decide⟩
  · exact .int (hn _) Iff.rfl
  · omega

/-- C57: a pointer to the forward declaration of one struct matches a pointer to a struct of another name. -/
theorem forward_declaration_name_ignored :
    let g : Graph Nat := fun r => match r with
      | 0 => .ptr 1
      | 1 => .fwd (lit "a") 0
      | 2 => .ptr 3
      | 3 => .struct (lit "b") 4 [] []
      | _ => .void
    ∃ vis, typesMatch g 100 0 2 [] = some (.ok (), vis) := ⟨_, rfl⟩

/-- C57: members of a struct behind a pointer are compared, although the documented rule only asks for name and kind there. -/
theorem behind_pointer_compared :
    let g : Graph Nat := fun r => match r with
      | 0 => .ptr 1
      | 1 => .struct (lit "s") 4 [⟨lit "a", 4, 0, 0, []⟩] []
      | 2 => .ptr 3
      | 3 => .struct (lit "s") 4 [⟨lit "b", 4, 0, 0, []⟩] []
      | _ => .int (lit "int") 4 1
    ∃ vis, typesMatch g 100 0 2 [] = some (.error .incompatible, vis) := ⟨_, rfl⟩

/-- C57: enum variants compare up to flavour, so two local variants may share one variant of the target. -/
theorem variants_share :
    let g : Graph Nat := fun r => match r with
      | 0 => .enum (lit "e") 4 false [⟨lit "A___1", 0⟩, ⟨lit "A___2", 1⟩]
      | _ => .enum (lit "e") 4 false [⟨lit "A", 0⟩, ⟨lit "B", 1⟩]
    ∃ vis, typesMatch g 100 0 1 [] = some (.ok (), vis) := ⟨_, rfl⟩

/-- C36: floats are not covered by the rules: a float is not even compatible with itself, and the error is not an incompatibility. -/
theorem float_unsupported :
    let g : Graph Nat := fun _ => .float (lit "double") 8
    ∃ vis, compatible g 100 0 0 [] = some (.error .unsupported, vis) := ⟨_, rfl⟩

/-! Recursive types: `struct list { struct list *next; }` with qualifiers on one side. -/
def exList : Graph Nat := fun r => match r with
  | 0 => .struct (lit "list") 8 [⟨lit "next", 1, 0, 0, []⟩] []
  | 1 => .ptr 0
  | 2 => .struct (lit "list___v2") 16 [⟨lit "prev", 3, 64, 0, []⟩, ⟨lit "next", 3, 0, 0, []⟩] []
  | 3 => .const 4
  | 4 => .ptr 5
  | 5 => .volatile 2
  | 6 => .funcProto 1 [⟨lit "x", 1⟩, ⟨lit "y", 0⟩]
  | 7 => .funcProto 3 [⟨[], 4⟩, ⟨[], 2⟩]
  | _ => .void

example : ∃ vis, typesMatch exList 100 0 2 [] = some (.ok (), vis) := ⟨_, rfl⟩
example : ∃ vis, typesMatch exList 100 2 0 [] = some (.error .incompatible, vis) := ⟨_, rfl⟩
example : ∃ vis, compatible exList 100 6 7 [] = some (.ok (), vis) := ⟨_, rfl⟩
example : ∃ vis, compatible exList 100 1 0 [] = some (.error .incompatible, vis) := ⟨_, rfl⟩
example : ClosedSet exList [0, 1, 2, 3, 4, 5, 6, 7, 8] := by
  intro a ha x hx
  simp only [List.mem_cons, List.not_mem_nil, or_false] at ha
  rcases ha with rfl | rfl | rfl | rfl | rfl | rfl | rfl | rfl | rfl <;> simp [exList, refs] at hx <;> simp <;> omega
example : UniqueMembers exList := by
  intro x ms h
  rcases x with _ | _ | _ | _ | _ | _ | _ | _ | x <;> simp [exList, Node.members?] at h <;> subst h <;> decide
example : Underlies exList 3 4 := ⟨1, by decide, .step (.qual (.const rfl)) (.refl 4), by
  intro v h; have := peel_some _ _ _ h; simp [exList, Node.peel?, Node.qualify?] at this⟩

end Ebpf.Btf
