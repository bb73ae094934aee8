import Verif.Model.Targets
/-!
# C101: every architecture gets the object compiled for it
-/
namespace Ebpf.Targets
open TargetsSpec

/-- What an object compiled for a target is good for: an architecture of the byte order of the target and, if the target is specific to
a kernel architecture, of that one. -/
def Serves (clang linux : String) (goarch : String) : Prop :=
  ∃ e k, IsArch goarch e k ∧ clang = clangOf e ∧ (linux = "" ∨ k = some linux)

/-! ## Constraints -/

theorem constraint_acc (l : List String) (acc : Option Expr) (ok : String → Bool) :
    ((l.foldl (fun acc a => orConstraints acc (some (.tag a))) acc).map (·.eval ok)).getD false =
      ((acc.map (·.eval ok)).getD false || l.any ok) := by
  induction l generalizing acc with
  | nil => simp
  | cons a l ih =>
    rw [List.foldl_cons, ih]
    cases acc with
    | none => simp [orConstraints, Expr.eval]
    | some x => simp [orConstraints, Expr.eval, Bool.or_assoc]

theorem constraint_some (l : List String) (x : Expr) :
    ∃ y, l.foldl (fun acc a => orConstraints acc (some (.tag a))) (some x) = some y := by
  induction l generalizing x with
  | nil => exact ⟨x, rfl⟩
  | cons a l ih => exact ih (.or x (.tag a))

/-- The constraint of some architectures holds if one of them does. -/
theorem constraint_eval (l : List String) (hl : l ≠ []) :
    ∃ x, constraint l = some x ∧ ∀ ok, x.eval ok = l.any ok := by
  cases l with
  | nil => exact absurd rfl hl
  | cons a l =>
    obtain ⟨y, hy⟩ := constraint_some l (.tag a)
    refine ⟨y, hy, ?_⟩
    intro ok
    have := constraint_acc (a :: l) none ok
    rw [List.foldl_cons] at this
    rw [show orConstraints none (some (Expr.tag a)) = some (Expr.tag a) from rfl, hy] at this
    simpa using this

/-! ## Targets -/

theorem lookup_table (id : String) (t : Target) : table.lookup id = some t ↔ (id, t) ∈ table := by
  constructor
  · intro h
    have : ∀ (l : List (String × Target)), l.lookup id = some t → (id, t) ∈ l := by
      intro l
      induction l with
      | nil => simp
      | cons p l ih =>
        obtain ⟨a, b⟩ := p
        rw [List.lookup_cons]
        split
        · rename_i e; intro hh; cases hh; rw [beq_iff_eq] at e; subst e; simp
        · intro hh; exact List.mem_cons_of_mem _ (ih hh)
    exact this _ h
  · intro h
    simp only [table, List.mem_cons, List.not_mem_nil, or_false, Prod.mk.injEq] at h
    rcases h with ⟨rfl, rfl⟩ | ⟨rfl, rfl⟩ | ⟨rfl, rfl⟩ | ⟨rfl, rfl⟩ | ⟨rfl, rfl⟩ | ⟨rfl, rfl⟩ | ⟨rfl, rfl⟩ | ⟨rfl, rfl⟩ |
      ⟨rfl, rfl⟩ | ⟨rfl, rfl⟩ | ⟨rfl, rfl⟩ | ⟨rfl, rfl⟩ | ⟨rfl, rfl⟩ | ⟨rfl, rfl⟩ <;> decide

/-- The table against the specification of architectures. -/
theorem table_serves (a : String) (cl : String) (hc : cl = "bpfel" ∨ cl = "bpfeb") :
    (∃ t, (a, t) ∈ table ∧ t.clang = cl) ↔ Serves cl "" a := by
  constructor
  · rintro ⟨t, h, rfl⟩
    simp only [table, List.mem_cons, List.not_mem_nil, or_false, Prod.mk.injEq] at h
    rcases h with ⟨rfl, rfl⟩ | ⟨rfl, rfl⟩ | ⟨rfl, rfl⟩ | ⟨rfl, rfl⟩ | ⟨rfl, rfl⟩ | ⟨rfl, rfl⟩ | ⟨rfl, rfl⟩ | ⟨rfl, rfl⟩ |
      ⟨rfl, rfl⟩ | ⟨rfl, rfl⟩ | ⟨rfl, rfl⟩ | ⟨rfl, rfl⟩ | ⟨rfl, rfl⟩ | ⟨rfl, rfl⟩ <;>
      exact ⟨_, _, by constructor, rfl, .inl rfl⟩
  · rintro ⟨e, k, h, rfl, _⟩
    cases h <;> exact ⟨_, by simp [table]; rfl, rfl⟩

theorem table_serves_linux (a : String) (t : Target) (ht : ∃ id, (id, t) ∈ table) (hl : t.linux ≠ "") :
    (a, t) ∈ table ↔ Serves t.clang t.linux a := by
  obtain ⟨id, ht⟩ := ht
  constructor
  · intro h
    simp only [table, List.mem_cons, List.not_mem_nil, or_false, Prod.mk.injEq] at h
    rcases h with ⟨rfl, rfl⟩ | ⟨rfl, rfl⟩ | ⟨rfl, rfl⟩ | ⟨rfl, rfl⟩ | ⟨rfl, rfl⟩ | ⟨rfl, rfl⟩ | ⟨rfl, rfl⟩ | ⟨rfl, rfl⟩ |
      ⟨rfl, rfl⟩ | ⟨rfl, rfl⟩ | ⟨rfl, rfl⟩ | ⟨rfl, rfl⟩ | ⟨rfl, rfl⟩ | ⟨rfl, rfl⟩ <;>
      first
        | exact absurd rfl hl
        | exact ⟨_, _, by constructor, rfl, .inr rfl⟩
  · rintro ⟨e, k, h, hc, hk⟩
    rcases hk with hk | hk
    · exact absurd hk hl
    · obtain ⟨c, l, g⟩ := t
      dsimp only at hc hk
      have hg : g = "" := by
        simp only [table, List.mem_cons, List.not_mem_nil, or_false, Prod.mk.injEq, Target.mk.injEq] at ht
        dsimp only at hl
        rcases ht with h | h | h | h | h | h | h | h | h | h | h | h | h | h <;>
          first
            | exact h.2.2.2
            | exact absurd h.2.2.1 hl
      subst hg
      cases h <;> (first | (cases hk; subst hc; simp [table, clangOf]) | cases hk)

/-- **The identifiers of targets.** FindTarget knows exactly bpf, bpfel, bpfeb, the architectures which have a name in the kernel, and native
on these. -/
theorem findTarget_iff (host : String) (order : List (String × Target)) (id : String) :
    (findTarget host order id).isSome = true ↔
      id = "bpf" ∨ id = "bpfel" ∨ id = "bpfeb" ∨ (∃ e k, IsArch id e (some k)) ∨ (id = "native" ∧ ∃ e k, IsArch host e (some k)) := by
  have key : ∀ a, (∃ t, table.lookup a = some t ∧ t.linux ≠ "") ↔ ∃ e k, IsArch a e (some k) := by
    intro a
    constructor
    · rintro ⟨t, h, hl⟩
      obtain ⟨e, k, h1, _, h3⟩ := (table_serves_linux a t ⟨a, (lookup_table a t).mp h⟩ hl).mp ((lookup_table a t).mp h)
      rcases h3 with h3 | h3
      · exact absurd h3 hl
      · subst h3; exact ⟨e, _, h1⟩
    · rintro ⟨e, k, h⟩
      generalize hk : some k = ko at h
      cases h <;> first | (cases hk; done) | (cases hk; exact ⟨_, rfl, by decide⟩)
  have key2 : ∀ a, (findArch order a).isSome = true ↔ ∃ e k, IsArch a e (some k) := by
    unfold findArch
    intro a
    rw [← key]
    cases h : table.lookup a with
    | none => simp
    | some t => by_cases hl : t.linux = "" <;> simp [hl]
  unfold findTarget
  split
  · rename_i h
    refine ⟨fun _ => ?_, fun _ => rfl⟩
    rcases h with h | h | h <;> simp [h]
  · rename_i h
    have h := not_or.mp h
    have h' := not_or.mp h.2
    rw [key2]
    by_cases hn : id = "native"
    · subst hn
      rw [if_pos rfl]
      constructor
      · intro x; exact .inr (.inr (.inr (.inr ⟨rfl, x⟩)))
      · rintro (x | x | x | ⟨e, k, x⟩ | x)
        · exact absurd x h.1
        · exact absurd x h'.1
        · exact absurd x h'.2
        · generalize hx : "native" = n at x
          cases x <;> exact absurd hx (by decide)
        · exact x.2
    · rw [if_neg hn]
      constructor
      · intro x; exact .inr (.inr (.inr (.inl x)))
      · rintro (x | x | x | x | x)
        · exact absurd x h.1
        · exact absurd x h'.1
        · exact absurd x h'.2
        · exact x
        · exact absurd x.1 hn

/-- All targets there are. -/
def known : List Target := ⟨"bpf", "", ""⟩ :: ⟨"bpfel", "", ""⟩ :: ⟨"bpfeb", "", ""⟩ :: (table.map (·.2)).filter (fun t => t.linux ≠ "")

theorem findTarget_known (host : String) (order : List (String × Target)) (id : String) (t : Target) (a : List String)
    (h : findTarget host order id = some (t, a)) : t ∈ known := by
  unfold findTarget at h
  split at h
  · rename_i h'
    cases h
    rcases h' with rfl | rfl | rfl <;> simp [known]
  · unfold findArch at h
    split at h
    · cases h
    · rename_i t' ht
      split at h
      · cases h
      · rename_i hl
        cases h
        have := (lookup_table _ _).mp ht
        simp only [known, List.mem_cons, List.mem_filter, List.mem_map]
        exact .inr (.inr (.inr ⟨⟨_, this, rfl⟩, by simpa using hl⟩))

/-- **The architectures of a target** are those which its object serves: the byte order is theirs, and if the target is specific then the kernel's
architecture is theirs. Except for the target bpf. -/
theorem findTarget_arches (host : String) (order : List (String × Target)) (ho : ∀ p, p ∈ order ↔ p ∈ table) (id : String)
    (hid : id ≠ "bpf") (t : Target) (a : List String) (h : findTarget host order id = some (t, a)) :
    a ≠ [] ∧ ∀ g, g ∈ a ↔ Serves t.clang t.linux g := by
  have main : ∀ g, g ∈ a ↔ Serves t.clang t.linux g := by
    unfold findTarget at h
    split at h
    · rename_i h'
      cases h
      intro g
      rw [← table_serves g id (by rcases h' with h' | h' | h' <;> simp_all)]
      simp only [List.mem_map, List.mem_filter, decide_eq_true_eq, Prod.exists, exists_and_right, exists_eq_right, ho]
    · unfold findArch at h
      split at h
      · cases h
      · rename_i t' ht
        split at h
        · cases h
        · rename_i hl
          cases h
          intro g
          rw [← table_serves_linux g t ⟨_, (lookup_table _ _).mp ht⟩ hl]
          simp only [List.mem_map, List.mem_filter, decide_eq_true_eq, Prod.exists, exists_and_right, exists_eq_right, ho]
  refine ⟨?_, main⟩
  have hk := findTarget_known host order id t a h
  have hne : t.clang ≠ "bpf" := by
    unfold findTarget at h
    split at h
    · cases h; exact hid
    · unfold findArch at h
      split at h
      · cases h
      · rename_i t' ht
        split at h
        · cases h
        · cases h
          have := (lookup_table _ _).mp ht
          simp only [table, List.mem_cons, List.not_mem_nil, or_false, Prod.mk.injEq] at this
          rcases this with ⟨_, rfl⟩ | ⟨_, rfl⟩ | ⟨_, rfl⟩ | ⟨_, rfl⟩ | ⟨_, rfl⟩ | ⟨_, rfl⟩ | ⟨_, rfl⟩ | ⟨_, rfl⟩ |
            ⟨_, rfl⟩ | ⟨_, rfl⟩ | ⟨_, rfl⟩ | ⟨_, rfl⟩ | ⟨_, rfl⟩ | ⟨_, rfl⟩ <;> decide
  have : ∃ g, Serves t.clang t.linux g := by
    simp only [known, table, List.map_cons, List.map_nil, List.filter_cons, List.filter_nil, List.mem_cons, decide_eq_true_eq, ne_eq] at hk
    simp at hk
    rcases hk with rfl | rfl | rfl | rfl | rfl | rfl | rfl | rfl | rfl | rfl | rfl | rfl | rfl <;>
      first
        | exact absurd rfl hne
        | exact ⟨"386", _, _, .i386, rfl, .inl rfl⟩
        | exact ⟨"s390x", _, _, .s390x, rfl, .inl rfl⟩
        | exact ⟨_, _, _, .i386, rfl, .inr rfl⟩
        | exact ⟨_, _, _, .arm, rfl, .inr rfl⟩
        | exact ⟨_, _, _, .arm64, rfl, .inr rfl⟩
        | exact ⟨_, _, _, .loong64, rfl, .inr rfl⟩
        | exact ⟨_, _, _, .mips, rfl, .inr rfl⟩
        | exact ⟨_, _, _, .ppc64, rfl, .inr rfl⟩
        | exact ⟨_, _, _, .ppc64le, rfl, .inr rfl⟩
        | exact ⟨_, _, _, .riscv64, rfl, .inr rfl⟩
        | exact ⟨_, _, _, .s390x, rfl, .inr rfl⟩
  obtain ⟨g, hg⟩ := this
  intro e
  have := (main g).mpr hg
  rw [e] at this
  cases this

/-- What each identifier stands for. -/
theorem findTarget_means (host : String) (order : List (String × Target)) (id : String) (t : Target) (a : List String)
    (h : findTarget host order id = some (t, a)) :
    (id = "bpf" ∨ id = "bpfel" ∨ id = "bpfeb" → t.clang = id ∧ t.linux = "") ∧
    (∀ e k, IsArch id e (some k) → Serves t.clang t.linux id ∧ t.linux = k) ∧
    (id = "native" → ∀ e k, IsArch host e (some k) → Serves t.clang t.linux host ∧ t.linux = k) := by
  have key : ∀ x t, table.lookup x = some t → ∀ e k, IsArch x e (some k) → Serves t.clang t.linux x ∧ t.linux = k := by
    intro x t hx e k hk
    have hl : t.linux ≠ "" ∧ t.linux = k := by
      generalize hk' : some k = ko at hk
      cases hk <;> first | (cases hk'; done) | (cases hk'; revert hx; simp [table, List.lookup]; intro hx; subst hx; simp)
    exact ⟨(table_serves_linux x t ⟨x, (lookup_table _ _).mp hx⟩ hl.1).mp ((lookup_table _ _).mp hx), hl.2⟩
  unfold findTarget at h
  split at h
  · rename_i h'
    cases h
    refine ⟨fun _ => ⟨rfl, rfl⟩, ?_, ?_⟩
    · intro e k hk
      exfalso
      have : ∀ x, IsArch x e (some k) → x ≠ "bpf" ∧ x ≠ "bpfel" ∧ x ≠ "bpfeb" := by
        intro x hx; generalize hk' : some k = ko at hx; cases hx <;> decide
      rcases h' with h' | h' | h'
      · exact (this _ hk).1 h'
      · exact (this _ hk).2.1 h'
      · exact (this _ hk).2.2 h'
    · intro hn; exfalso; subst hn; revert h'; decide
  · rename_i h'
    unfold findArch at h
    split at h
    · cases h
    · rename_i t' ht
      split at h
      · cases h
      · cases h
        refine ⟨fun x => absurd x h', ?_, ?_⟩
        · intro e k hk
          have hn : id ≠ "native" := by intro hn; rw [hn] at hk; generalize hx : "native" = x at hk; revert hx; cases hk <;> decide
          rw [if_neg hn] at ht
          exact key _ _ ht e k hk
        · intro hn e k hk
          rw [if_pos hn] at ht
          exact key _ _ ht e k hk

/-! ## Names of files -/

theorem parts_ne (s : Name) : parts s ≠ [] := by
  cases s with
  | nil => simp [parts]
  | cons c s =>
    unfold parts; split
    · simp
    · split <;> simp

theorem parts_append (s r : Name) : parts (s ++ '_' :: r) = parts s ++ parts r := by
  induction s with
  | nil =>
    simp only [List.nil_append, parts, List.cons_append]
    split
    · rename_i h; exact absurd h (parts_ne r)
    · rename_i h; simp [h]
  | cons c s ih =>
    simp only [List.cons_append, parts, ih]
    cases h : parts s with
    | nil => exact absurd h (parts_ne s)
    | cons p ps =>
      simp only [List.cons_append]
      split <;> simp

theorem parts_single (s : Name) (h : '_' ∉ s) : parts s = [s] := by
  induction s with
  | nil => rfl
  | cons c s ih =>
    simp only [List.mem_cons, not_or] at h
    simp only [parts, ih h.2]
    rw [if_neg (fun e => h.1 e.symm)]

/-- A stem which neither contains a dot nor begins with an underscore. -/
def GoodStem (s : Name) : Prop := s ≠ [] ∧ '.' ∉ s ∧ s.head? ≠ some '_'

/-- The options: the stem of the files, or else the identifier, is good; the suffix is none or _test, as bpf2go chooses it. -/
def Good (o : Opts) : Prop :=
  GoodStem (if o.outputStem = [] then o.identStem else o.outputStem) ∧ (o.outputSuffix = [] ∨ o.outputSuffix = "_test".toList)

theorem toLower_ne (c d : Char) (hd : d.toNat < 97) (h : c ≠ d) : c.toLower ≠ d := by
  unfold Char.toLower
  split
  · rename_i hc
    intro e
    rw [← e] at hd
    have hc' := hc
    simp only [ge_iff_le, UInt32.le_iff_toNat_le] at hc'
    simp only [Char.toNat] at hd
    simp [UInt32.toNat_add] at hd hc'
    omega
  · exact h

theorem outStem_good (o : Opts) (h : Good o) : GoodStem (outStem o) := by
  obtain ⟨h, _⟩ := h
  unfold outStem
  split
  · rename_i he
    rw [if_pos he] at h
    obtain ⟨h1, h2, h3⟩ := h
    refine ⟨by simpa using h1, ?_, ?_⟩
    · intro hm
      obtain ⟨c, hc, e⟩ := List.mem_map.mp hm
      exact toLower_ne c '.' (by decide) (fun x => h2 (x ▸ hc)) e
    · rw [List.head?_map]
      intro hh
      obtain ⟨c, hc, e⟩ := Option.map_eq_some_iff.mp hh
      have : c ≠ '_' := fun x => h3 (x ▸ hc)
      exact toLower_ne c '_' (by decide) this e
  · rename_i he
    rwa [if_neg he] at h

theorem takeWhile_dot (a r : Name) (h : '.' ∉ a) : (a ++ '.' :: r).takeWhile (· ≠ '.') = a := by
  induction a with
  | nil => simp
  | cons c a ih =>
    simp only [List.mem_cons, not_or] at h
    have hc : c ≠ '.' := fun e => h.1 e.symm
    rw [List.cons_append, List.takeWhile_cons, if_pos (by simpa using hc), ih h.2]

theorem known_cases (t : Target) (h : t ∈ known) :
    (t.clang = "bpf" ∨ t.clang = "bpfel" ∨ t.clang = "bpfeb") ∧ '.' ∉ t.linux.toList ∧ t.goos = "" := by
  revert t
  decide

/-- The names of the generated files restrict no build. -/
theorem name_ok (o : Opts) (ho : Good o) (t : Target) (ht : t ∈ known) (b : Build) :
    nameOk b (goFile o t) = true ∧ (goFile o t).head? ≠ some '_' ∧ (goFile o t).head? ≠ some '.' := by
  obtain ⟨g1, g2, g3⟩ := outStem_good o ho
  obtain ⟨kc, kl, _⟩ := known_cases t ht
  have hsuf : '.' ∉ o.outputSuffix := by rcases ho.2 with h | h <;> rw [h] <;> decide
  have hcl : '.' ∉ t.clang.toList ∧ '_' ∉ t.clang.toList ∧ t.clang.toList ≠ "test".toList ∧ String.ofList t.clang.toList ∉ knownOS ∧
      String.ofList t.clang.toList ∉ knownArch := by
    rcases kc with h | h | h <;> rw [h] <;> decide
  obtain ⟨c1, c2, c3, c4, c5⟩ := hcl
  have hdot : '.' ∉ fileStem o t := by
    unfold fileStem suffix
    simp only [List.mem_append, List.mem_cons, not_or]
    refine ⟨⟨g2, by decide, ?_⟩, hsuf⟩
    split
    · simp only [List.mem_append, List.mem_cons, not_or]; exact ⟨kl, by decide, c1⟩
    · exact c1
  have hhead : (goFile o t).head? = (outStem o).head? := by
    unfold goFile fileStem
    cases h : outStem o with
    | nil => exact absurd h g1
    | cons c s => rfl
  refine ⟨?_, by rw [hhead]; exact g3, ?_⟩
  · have htail : ∃ r, TargetsSpec.tail (goFile o t) = t.clang.toList :: r := by
      unfold TargetsSpec.tail
      have hw : (goFile o t).takeWhile (· ≠ '.') = fileStem o t := by
        unfold goFile
        exact takeWhile_dot _ _ hdot
      rw [hw]
      have hp : ∃ l, (parts (outStem o ++ '_' :: suffix t)).tail = l ++ [t.clang.toList] := by
        rw [parts_append]
        obtain ⟨p, ps, hps⟩ := List.exists_cons_of_ne_nil (parts_ne (outStem o))
        rw [hps]
        unfold suffix
        split
        · rw [parts_append, parts_single _ c2]
          exact ⟨ps ++ parts t.linux.toList, by simp⟩
        · rw [parts_single _ c2]; exact ⟨ps, by simp⟩
      obtain ⟨l, hl⟩ := hp
      rcases ho.2 with h | h
      · have : fileStem o t = outStem o ++ '_' :: suffix t := by unfold fileStem; rw [h]; simp
        rw [this, hl]
        simp only [List.reverse_append, List.reverse_cons, List.reverse_nil, List.nil_append, List.cons_append]
        rw [if_neg c3]
        exact ⟨_, rfl⟩
      · have : fileStem o t = (outStem o ++ '_' :: suffix t) ++ '_' :: "test".toList := by unfold fileStem; rw [h]; simp
        rw [this, parts_append]
        have hpt : parts "test".toList = ["test".toList] := by decide
        have hne : parts (outStem o ++ '_' :: suffix t) ≠ [] := parts_ne _
        rw [hpt, List.tail_append_of_ne_nil hne, hl]
        refine ⟨l.reverse, ?_⟩
        simp
    obtain ⟨r, hr⟩ := htail
    unfold nameOk
    rw [hr]
    cases r with
    | nil => simp only [c4, c5, or_self, if_false]
    | cons o' r => simp only [c4, c5, or_self, and_false, if_false]
  · rw [hhead]
    intro e
    cases h : outStem o with
    | nil => exact g1 h
    | cons c s => rw [h] at e g2; cases e; exact g2 (by simp)

/-! ## Which files are part of a build -/

/-- The further tags of a build aren't names of architectures. -/
def Sane (b : Build) : Prop := ∀ a e k, IsArch a e k → (b.ok a = true ↔ a = b.goarch)

example : Sane ⟨"linux", "amd64", ["mytag"]⟩ := by
  intro a e k h
  cases h <;> decide

/-- The constraint of a file. -/
theorem and_eval (x : Expr) (tags : Option Expr) (ok : String → Bool) :
    ((andConstraints (some x) tags).map (·.eval ok)).getD true = (x.eval ok && (tags.map (·.eval ok)).getD true) := by
  cases tags <;> simp [andConstraints, Expr.eval]

theorem in_build (o : Opts) (ho : Good o) (host : String) (order : List (String × Target)) (hord : ∀ p, p ∈ order ↔ p ∈ table) (id : String)
    (hid : id ≠ "bpf") (t : Target) (a : List String) (h : findTarget host order id = some (t, a)) (b : Build) (hb : Sane b) :
    inBuild b (goFile o t) (andConstraints (constraint a) o.tags) = true ↔
      Serves t.clang t.linux b.goarch ∧ ∀ e, o.tags = some e → e.eval b.ok = true := by
  obtain ⟨ha, hs⟩ := findTarget_arches host order hord id hid t a h
  obtain ⟨x, hx, hev⟩ := constraint_eval a ha
  obtain ⟨n1, n2, n3⟩ := name_ok o ho t (findTarget_known host order id t a h) b
  unfold inBuild
  rw [hx, and_eval, hev]
  simp only [n1, n2, n3, ne_eq, not_false_eq_true, decide_true, Bool.true_and, Bool.and_eq_true, List.any_eq_true]
  have e1 : (∃ g, g ∈ a ∧ b.ok g = true) ↔ Serves t.clang t.linux b.goarch := by
    constructor
    · rintro ⟨g, hg, hok⟩
      have sg := (hs g).mp hg
      obtain ⟨e, k, hi, _⟩ := sg
      have := (hb g e k hi).mp hok
      rw [← this]
      exact (hs g).mp hg
    · intro sg
      have sg' := sg
      obtain ⟨e, k, hi, _⟩ := sg'
      exact ⟨b.goarch, (hs _).mpr sg, (hb _ e k hi).mpr rfl⟩
  rw [e1]
  cases o.tags with
  | none => simp
  | some y => simp

/-! ## The output directory -/

/-- The names removed because of a target. -/
def obsolete (o : Opts) (t : Target) (n : Name) : Prop :=
  t.linux ≠ "" ∧ (n = outStem o ++ '_' :: (t.clang.toList ++ '_' :: t.linux.toList) ++ ".o".toList ∨
    n = outStem o ++ '_' :: (t.clang.toList ++ '_' :: t.linux.toList) ++ ".go".toList)

theorem suffix_inj : ∀ t ∈ known, ∀ t' ∈ known, suffix t = suffix t' → t = t' := by decide

theorem suffix_obsolete : ∀ t ∈ known, ∀ t' ∈ known, t'.linux ≠ "" →
    suffix t ≠ t'.clang.toList ++ '_' :: t'.linux.toList ∧
    suffix t ++ "_test".toList ≠ t'.clang.toList ++ '_' :: t'.linux.toList := by decide

theorem ext_ne (a b : Name) : a ++ ".go".toList ≠ b ++ ".o".toList := by
  intro h
  have h := congrArg List.reverse h
  rw [List.reverse_append, List.reverse_append] at h
  have h := congrArg (fun l => l[1]?) h
  simp at h

theorem go_inj (o : Opts) (t t' : Target) (h : t ∈ known) (h' : t' ∈ known) (e : goFile o t = goFile o t') : t = t' := by
  unfold goFile fileStem at e
  exact suffix_inj t h t' h' (by simpa using e)

theorem obj_inj (o : Opts) (t t' : Target) (h : t ∈ known) (h' : t' ∈ known) (e : objFile o t = objFile o t') : t = t' := by
  unfold objFile fileStem at e
  exact suffix_inj t h t' h' (by simpa using e)

theorem go_not_obsolete (o : Opts) (ho : Good o) (t t' : Target) (h : t ∈ known) (h' : t' ∈ known) : ¬ obsolete o t' (goFile o t) := by
  rintro ⟨hl, e | e⟩
  · exact ext_ne _ _ e
  · unfold goFile fileStem at e
    obtain ⟨n1, n2⟩ := suffix_obsolete t h t' h' hl
    rcases ho.2 with h | h
    · rw [h, List.append_left_inj, List.append_nil] at e
      have := List.append_cancel_left e
      exact n1 (by simpa using this)
    · rw [h] at e
      rw [List.append_left_inj] at e
      rw [List.append_assoc] at e
      have := List.append_cancel_left e
      exact n2 (by simpa using this)

theorem obj_not_obsolete (o : Opts) (ho : Good o) (t t' : Target) (h : t ∈ known) (h' : t' ∈ known) : ¬ obsolete o t' (objFile o t) := by
  rintro ⟨hl, e | e⟩
  · unfold objFile fileStem at e
    obtain ⟨n1, n2⟩ := suffix_obsolete t h t' h' hl
    rcases ho.2 with h | h
    · rw [h, List.append_left_inj, List.append_nil] at e
      have := List.append_cancel_left e
      exact n1 (by simpa using this)
    · rw [h] at e
      rw [List.append_left_inj] at e
      rw [List.append_assoc] at e
      have := List.append_cancel_left e
      exact n2 (by simpa using this)
  · exact ext_ne _ _ e.symm

theorem convert_go (o : Opts) (t : Target) (a : List String) (d : Dir) :
    convert o t a d (goFile o t) = some (.go (andConstraints (constraint a) o.tags) (objFile o t)) := by
  simp [convert, Dir.set]

theorem convert_obj (o : Opts) (t : Target) (a : List String) (d : Dir) :
    convert o t a d (objFile o t) = some (.obj t.clang t.linux) := by
  have : objFile o t ≠ goFile o t := fun e => ext_ne _ _ e.symm
  simp [convert, Dir.set, this]

theorem convert_other (o : Opts) (t : Target) (a : List String) (d : Dir) (n : Name) (h1 : n ≠ goFile o t) (h2 : n ≠ objFile o t) :
    (obsolete o t n → convert o t a d n = none) ∧ (¬ obsolete o t n → convert o t a d n = d n) := by
  simp only [convert, Dir.set, h1, h2, if_false]
  unfold removeOld obsoleteSuffix obsolete
  by_cases hl : t.linux = ""
  · simp [hl]
  · simp only [hl, if_false, ne_eq, not_false_eq_true, true_and, List.append_eq_nil_iff, reduceCtorEq, and_false, Dir.set]
    constructor
    · rintro (h | h) <;> simp [h]
    · intro h
      rw [not_or] at h
      rw [if_neg h.2, if_neg h.1]

theorem convertAll_keeps (o : Opts) (l : List (Target × List String)) (d : Dir) (n : Name)
    (h : ∀ p ∈ l, n ≠ goFile o p.1 ∧ n ≠ objFile o p.1 ∧ ¬ obsolete o p.1 n) : convertAll o l d n = d n := by
  induction l generalizing d with
  | nil => rfl
  | cons p l ih =>
    obtain ⟨h1, h2, h3⟩ := h p (by simp)
    show convertAll o l (convert o p.1 p.2 d) n = d n
    rw [ih _ (fun q hq => h q (by simp [hq])), (convert_other o p.1 p.2 d n h1 h2).2 h3]

theorem convertAll_has (o : Opts) (ho : Good o) (l : List (Target × List String)) (hk : ∀ p ∈ l, p.1 ∈ known)
    (hn : l.Pairwise (fun p q => p.1 ≠ q.1)) (d : Dir) (t : Target) (a : List String) (hm : (t, a) ∈ l) :
    convertAll o l d (goFile o t) = some (.go (andConstraints (constraint a) o.tags) (objFile o t)) ∧
    convertAll o l d (objFile o t) = some (.obj t.clang t.linux) := by
  induction l generalizing d with
  | nil => cases hm
  | cons p l ih =>
    rw [List.pairwise_cons] at hn
    rcases List.mem_cons.mp hm with rfl | hm'
    · have hkt := hk (t, a) (by simp)
      have hkeep : ∀ q ∈ l, q.1 ∈ known ∧ t ≠ q.1 := fun q hq => ⟨hk q (by simp [hq]), hn.1 q hq⟩
      constructor
      · show convertAll o l (convert o t a d) (goFile o t) = _
        rw [convertAll_keeps o l _ _ ?_, convert_go]
        intro q hq
        obtain ⟨k, ne⟩ := hkeep q hq
        exact ⟨fun e => ne (go_inj o _ _ hkt k e), ext_ne _ _, go_not_obsolete o ho _ _ hkt k⟩
      · show convertAll o l (convert o t a d) (objFile o t) = _
        rw [convertAll_keeps o l _ _ ?_, convert_obj]
        intro q hq
        obtain ⟨k, ne⟩ := hkeep q hq
        exact ⟨fun e => ext_ne _ _ e.symm, fun e => ne (obj_inj o _ _ hkt k e), obj_not_obsolete o ho _ _ hkt k⟩
    · exact ih (fun q hq => hk q (by simp [hq])) hn.2 _ hm'

/-! ## The list of targets -/

theorem put_spec (m : List (Target × List String)) (t : Target) (a : List String) (hm : m.Pairwise (fun p q => p.1 ≠ q.1)) :
    (put m t a).Pairwise (fun p q => p.1 ≠ q.1) ∧ (t, a) ∈ put m t a ∧
      (∀ p ∈ put m t a, p = (t, a) ∨ p ∈ m) ∧ (∀ p ∈ m, p.1 ≠ t → p ∈ put m t a) := by
  unfold put
  refine ⟨List.pairwise_cons.mpr ⟨?_, hm.filter _⟩, by simp, ?_, ?_⟩
  · intro p hp e; exact absurd e.symm (by simpa using (List.mem_filter.mp hp).2)
  · intro p hp
    rcases List.mem_cons.mp hp with h | h
    · exact .inl h
    · exact .inr (List.mem_filter.mp h).1
  · intro p hp hne
    exact List.mem_cons_of_mem _ (List.mem_filter.mpr ⟨hp, by simpa using hne⟩)

theorem newTargets_spec (host : String) (order : List (String × Target)) (ids : List String) (m ts : List (Target × List String))
    (hm : m.Pairwise (fun p q => p.1 ≠ q.1)) (h : newTargets host order ids m = some ts) :
    ts.Pairwise (fun p q => p.1 ≠ q.1) ∧
      (∀ p ∈ ts, p ∈ m ∨ ∃ id ∈ ids, findTarget host order id = some p) ∧
      (∀ p ∈ m, ∃ a, (p.1, a) ∈ ts) ∧
      (∀ id ∈ ids, ∃ t a a', findTarget host order id = some (t, a) ∧ (t, a') ∈ ts) := by
  induction ids generalizing m with
  | nil => cases h; exact ⟨hm, fun p hp => .inl hp, fun p hp => ⟨p.2, hp⟩, by simp⟩
  | cons id ids ih =>
    unfold newTargets at h
    cases hf : findTarget host order id with
    | none => rw [hf] at h; cases h
    | some r =>
      obtain ⟨t, a⟩ := r
      rw [hf] at h
      obtain ⟨p1, p2, p3, p4⟩ := put_spec m t a hm
      obtain ⟨i1, i2, i3, i4⟩ := ih (put m t a) p1 h
      refine ⟨i1, ?_, ?_, ?_⟩
      · intro p hp
        rcases i2 p hp with h' | ⟨id', h1, h2⟩
        · rcases p3 p h' with h'' | h''
          · exact .inr ⟨id, by simp, by rw [hf, h'']⟩
          · exact .inl h''
        · exact .inr ⟨id', by simp [h1], h2⟩
      · intro p hp
        by_cases hne : p.1 = t
        · obtain ⟨a', ha'⟩ := i3 (t, a) p2
          exact ⟨a', by rw [hne]; exact ha'⟩
        · exact i3 p (p4 p hp hne)
      · intro id' hid
        rcases List.mem_cons.mp hid with rfl | hid
        · obtain ⟨a', ha'⟩ := i3 (t, a) p2
          exact ⟨t, a, a', hf, ha'⟩
        · exact i4 id' hid

/-- **Each architecture gets the object compiled for it.** After bpf2go ran with some targets, the target bpf not among them, in whatever order it
converted them: for each target asked for there is an object compiled for it, and a Go file that embeds this object and is part of exactly the builds for
architectures which the object serves and whose tags are those asked for. -/
theorem right_object_partial (host : String) (order : List (String × Target)) (hord : ∀ p, p ∈ order ↔ p ∈ table) (ids : List String)
    (hb : "bpf" ∉ ids) (ts ts' : List (Target × List String)) (h : newTargets host order ids [] = some ts) (hp : ts'.Perm ts)
    (o : Opts) (ho : Good o) (d : Dir) (id : String) (hid : id ∈ ids) :
    ∃ t a c, findTarget host order id = some (t, a) ∧
      convertAll o ts' d (objFile o t) = some (.obj t.clang t.linux) ∧
      convertAll o ts' d (goFile o t) = some (.go c (objFile o t)) ∧
      ∀ b, Sane b → (inBuild b (goFile o t) c = true ↔
        Serves t.clang t.linux b.goarch ∧ ∀ e, o.tags = some e → e.eval b.ok = true) := by
  obtain ⟨n1, n2, _, n4⟩ := newTargets_spec host order ids [] ts List.Pairwise.nil h
  obtain ⟨t, a, a', hf, hm⟩ := n4 id hid
  have hk : ∀ p ∈ ts', p.1 ∈ known := by
    intro p hp'
    rcases n2 p (hp.mem_iff.mp hp') with h' | ⟨id', _, h2⟩
    · cases h'
    · exact findTarget_known host order id' p.1 p.2 h2
  have hn : ts'.Pairwise (fun p q => p.1 ≠ q.1) := (hp.pairwise_iff (fun h e => h e.symm)).mpr n1
  obtain ⟨c1, c2⟩ := convertAll_has o ho ts' hk hn d t a' (hp.mem_iff.mpr hm)
  refine ⟨t, a, _, hf, c2, c1, ?_⟩
  intro b sb
  rcases n2 _ hm with h' | ⟨id', h1, h2⟩
  · cases h'
  · exact in_build o ho host order hord id' (fun e => hb (e ▸ h1)) t a' h2 b sb

/-- Nothing else in the directory changes, but files of the old naming scheme are removed. -/
theorem other_files_kept (host : String) (order : List (String × Target)) (ids : List String) (ts ts' : List (Target × List String))
    (h : newTargets host order ids [] = some ts) (hp : ts'.Perm ts) (o : Opts) (d : Dir) (n : Name)
    (hn : ∀ id ∈ ids, ∀ t a, findTarget host order id = some (t, a) → n ≠ goFile o t ∧ n ≠ objFile o t ∧ ¬ obsolete o t n) :
    convertAll o ts' d n = d n := by
  obtain ⟨n1, n2, _, n4⟩ := newTargets_spec host order ids [] ts List.Pairwise.nil h
  refine convertAll_keeps o ts' d n ?_
  intro p hp'
  rcases n2 p (hp.mem_iff.mp hp') with h' | ⟨id', h1, h2⟩
  · cases h'
  · exact hn id' h1 p.1 p.2 h2

theorem convertAll_removes (o : Opts) (ho : Good o) (l : List (Target × List String)) (hk : ∀ p ∈ l, p.1 ∈ known) (d : Dir) (n : Name)
    (t : Target) (ht : t ∈ known) (hn : obsolete o t n) (h : d n = none ∨ ∃ a, (t, a) ∈ l) : convertAll o l d n = none := by
  have new : ∀ t' ∈ known, n ≠ goFile o t' ∧ n ≠ objFile o t' := by
    intro t' ht'
    exact ⟨fun e => go_not_obsolete o ho t' t ht' ht (e ▸ hn), fun e => obj_not_obsolete o ho t' t ht' ht (e ▸ hn)⟩
  induction l generalizing d with
  | nil =>
    rcases h with h | ⟨a, h⟩
    · exact h
    · cases h
  | cons p l ih =>
    show convertAll o l (convert o p.1 p.2 d) n = none
    obtain ⟨n1, n2⟩ := new p.1 (hk p (by simp))
    obtain ⟨c1, c2⟩ := convert_other o p.1 p.2 d n n1 n2
    refine ih (fun q hq => hk q (by simp [hq])) _ ?_
    rcases h with h | ⟨a, h⟩
    · left
      by_cases ho' : obsolete o p.1 n
      · exact c1 ho'
      · rw [c2 ho', h]
    · rcases List.mem_cons.mp h with rfl | h
      · exact .inl (c1 hn)
      · exact .inr ⟨a, h⟩

/-- Files of the old naming scheme, which go build would take for files of one architecture, are gone. -/
theorem old_files_removed (host : String) (order : List (String × Target)) (ids : List String) (ts ts' : List (Target × List String))
    (h : newTargets host order ids [] = some ts) (hp : ts'.Perm ts) (o : Opts) (ho : Good o) (d : Dir) (id : String) (hid : id ∈ ids)
    (t : Target) (a : List String) (hf : findTarget host order id = some (t, a)) (hl : t.linux ≠ "") (ext : Name)
    (he : ext = ".o".toList ∨ ext = ".go".toList) :
    convertAll o ts' d (outStem o ++ '_' :: (t.clang.toList ++ '_' :: t.linux.toList) ++ ext) = none := by
  obtain ⟨n1, n2, _, n4⟩ := newTargets_spec host order ids [] ts List.Pairwise.nil h
  obtain ⟨t', a1, a2, h1, h2⟩ := n4 id hid
  rw [hf] at h1
  cases h1
  refine convertAll_removes o ho ts' ?_ d _ t (findTarget_known _ _ _ _ _ hf) ⟨hl, ?_⟩ (.inr ⟨a2, hp.mem_iff.mpr h2⟩)
  · intro p hp'
    rcases n2 p (hp.mem_iff.mp hp') with h' | ⟨id', _, h2⟩
    · cases h'
    · exact findTarget_known host order id' p.1 p.2 h2
  · rcases he with rfl | rfl <;> simp

/-! ## At most one file -/

theorem isArch_fun (a : String) (e e' : Endian) (k k' : Option String) (h : IsArch a e k) (h' : IsArch a e' k') : e = e' ∧ k = k' := by
  generalize hx : a = x at h'
  cases h <;> cases h' <;> first | exact ⟨rfl, rfl⟩ | (exact absurd hx (by decide))

/-- **No clash.** If only generic targets are asked for, or only specific ones, then at most one of the generated files is part of a build. -/
theorem at_most_one (host : String) (order : List (String × Target)) (hord : ∀ p, p ∈ order ↔ p ∈ table) (ids : List String)
    (hg : (∀ id ∈ ids, id = "bpfel" ∨ id = "bpfeb") ∨ (∀ id ∈ ids, id ≠ "bpf" ∧ id ≠ "bpfel" ∧ id ≠ "bpfeb"))
    (o : Opts) (ho : Good o) (id1 id2 : String) (h1 : id1 ∈ ids) (h2 : id2 ∈ ids) (t1 t2 : Target) (a1 a2 : List String)
    (f1 : findTarget host order id1 = some (t1, a1)) (f2 : findTarget host order id2 = some (t2, a2)) (b : Build) (sb : Sane b)
    (b1 : inBuild b (goFile o t1) (andConstraints (constraint a1) o.tags) = true)
    (b2 : inBuild b (goFile o t2) (andConstraints (constraint a2) o.tags) = true) : t1 = t2 := by
  have nb : ∀ id ∈ ids, id ≠ "bpf" := by
    intro id hid
    rcases hg with hg | hg
    · rcases hg id hid with h | h <;> rw [h] <;> decide
    · exact (hg id hid).1
  obtain ⟨⟨e1, k1, i1, c1, l1⟩, _⟩ := (in_build o ho host order hord id1 (nb _ h1) t1 a1 f1 b sb).mp b1
  obtain ⟨⟨e2, k2, i2, c2, l2⟩, _⟩ := (in_build o ho host order hord id2 (nb _ h2) t2 a2 f2 b sb).mp b2
  obtain ⟨rfl, rfl⟩ := isArch_fun _ _ _ _ _ i1 i2
  have g1 := (known_cases t1 (findTarget_known _ _ _ _ _ f1)).2.2
  have g2 := (known_cases t2 (findTarget_known _ _ _ _ _ f2)).2.2
  have hc : t1.clang = t2.clang := by rw [c1, c2]
  have hl : t1.linux = t2.linux := by
    rcases hg with hg | hg
    · rw [((findTarget_means host order id1 t1 a1 f1).1 (.inr (hg _ h1))).2, ((findTarget_means host order id2 t2 a2 f2).1 (.inr (hg _ h2))).2]
    · have spec : ∀ id ∈ ids, ∀ t a, findTarget host order id = some (t, a) → t.linux ≠ "" := by
        intro id hid t a hf
        obtain ⟨x1, x2, x3⟩ := hg id hid
        unfold findTarget at hf
        rw [if_neg (by simp [x1, x2, x3])] at hf
        unfold findArch at hf
        split at hf
        · cases hf
        · split at hf
          · cases hf
          · rename_i hh; cases hf; exact hh
      rcases l1 with l1 | l1
      · exact absurd l1 (spec _ h1 _ _ f1)
      · rcases l2 with l2 | l2
        · exact absurd l2 (spec _ h2 _ _ f2)
        · rw [l1] at l2; exact Option.some.inj l2
  cases t1; cases t2
  dsimp only at hc hl g1 g2
  subst hc hl g1 g2
  rfl

/-- With the default targets every architecture gets an object of its byte order. -/
theorem default_covers (host : String) (order : List (String × Target)) (hord : ∀ p, p ∈ order ↔ p ∈ table) (o : Opts) (ho : Good o)
    (ht : o.tags = none) (b : Build) (sb : Sane b) (e : Endian) (k : Option String) (hi : IsArch b.goarch e k) :
    ∃ id ∈ ["bpfel", "bpfeb"], ∃ t a, findTarget host order id = some (t, a) ∧ t.linux = "" ∧
      t.clang = clangOf e ∧
      inBuild b (goFile o t) (andConstraints (constraint a) o.tags) = true := by
  have main : ∀ id, id = "bpfel" ∨ id = "bpfeb" → clangOf e = id →
      ∃ t a, findTarget host order id = some (t, a) ∧ t.linux = "" ∧
      t.clang = clangOf e ∧
      inBuild b (goFile o t) (andConstraints (constraint a) o.tags) = true := by
    intro id hid he
    have hs := (findTarget_iff host order id).mpr (.inr (by rcases hid with h | h <;> simp [h]))
    obtain ⟨⟨t, a⟩, hf⟩ := Option.isSome_iff_exists.mp hs
    obtain ⟨hc, hl⟩ := (findTarget_means host order id t a hf).1 (.inr hid)
    refine ⟨t, a, hf, hl, by rw [hc, he], ?_⟩
    refine (in_build o ho host order hord id (by rcases hid with h | h <;> rw [h] <;> decide) t a hf b sb).mpr ⟨?_, by simp [ht]⟩
    exact ⟨e, k, hi, by rw [hc, he], .inl hl⟩
  cases e with
  | little => exact ⟨"bpfel", by simp, main _ (.inl rfl) rfl⟩
  | big => exact ⟨"bpfeb", by simp, main _ (.inr rfl) rfl⟩

/-! ## What is wrong -/

/-- **The target bpf goes everywhere.** The Go file for the target bpf, whose object has the byte order of the machine it was compiled on, is part of
the builds for all architectures. -/
theorem bpf_everywhere (host : String) (order : List (String × Target)) (hord : ∀ p, p ∈ order ↔ p ∈ table) (o : Opts) (ho : Good o)
    (ht : o.tags = none) (b : Build) :
    ∃ t a, findTarget host order "bpf" = some (t, a) ∧ inBuild b (goFile o t) (andConstraints (constraint a) o.tags) = true := by
  have hf : order.filter (fun p => p.2.clang = "bpf") = [] := by
    rw [List.filter_eq_nil_iff]
    intro p hp
    have := (hord p).mp hp
    have all : ∀ q ∈ table, q.2.clang ≠ "bpf" := by decide
    simpa using all p this
  refine ⟨⟨"bpf", "", ""⟩, [], by simp [findTarget, hf], ?_⟩
  obtain ⟨n1, n2, n3⟩ := name_ok o ho ⟨"bpf", "", ""⟩ (by decide) b
  unfold inBuild
  simp [n1, n2, n3, ht, constraint, andConstraints]

/-- A stem with a dot: the file for amd64 isn't part of the build for amd64 if what is before the dot ends like an architecture. -/
theorem dot_hides : ∃ o b, o.outputStem = "prog_arm64.v2".toList ∧ o.outputSuffix = [] ∧ o.tags = none ∧ b.goarch = "amd64" ∧
    inBuild b (goFile o ⟨"bpfel", "x86", ""⟩) (andConstraints (constraint ["386", "amd64"]) o.tags) = false :=
  ⟨⟨"prog_arm64.v2".toList, [], [], none⟩, ⟨"linux", "amd64", []⟩, rfl, rfl, rfl, rfl, by decide⟩

/-- An identifier beginning with an underscore, as Go permits: the generated files are part of no build. -/
theorem underscore_hides (o : Opts) (t : Target) (s : Name) (h : outStem o = '_' :: s) (b : Build) (c : Option Expr) :
    inBuild b (goFile o t) c = false := by
  have : (goFile o t).head? = some '_' := by unfold goFile fileStem; rw [h]; rfl
  unfold inBuild
  rw [this]
  simp

/-! ## Flags of the compiler -/

/-- The last flag that begins like `p`: the one that counts, for flags like -O and -mcpu=. -/
def lastWith (p : String) (l : List String) : Option String := (l.filter (fun f => p.toList.isPrefixOf f.toList)).getLast?

theorem lastWith_append (p : String) (a b : List String) : lastWith p (a ++ b) = (lastWith p b).or (lastWith p a) := by
  unfold lastWith
  rw [List.filter_append, List.getLast?_append]

theorem lastWith_none (p : String) (l : List String) (h : ∀ f ∈ l, p.toList.isPrefixOf f.toList = false) : lastWith p l = none := by
  unfold lastWith
  rw [List.filter_eq_nil_iff.mpr (by intro f hf; simp [h f hf])]
  rfl

theorem head_prefix (p x : String) (c : Char) (hx : x.toList.head? = some c) (hp : p.toList.head? = some '-') (hc : c ≠ '-') :
    p.toList.isPrefixOf x.toList = false := by
  cases h1 : p.toList with
  | nil => rw [h1] at hp; cases hp
  | cons a as =>
    cases h2 : x.toList with
    | nil => rfl
    | cons b bs =>
      rw [h1] at hp; rw [h2] at hx
      cases hp; cases hx
      simp [List.isPrefixOf, Ne.symm hc]

theorem known_head (t : Target) (h : t ∈ known) : t.clang.toList.head? = some 'b' := by
  revert t
  decide

theorem fixed_prefix (t : Target) (ht : t ∈ known) (source dest dir rel : String) (hs : source.toList.head? = some '/')
    (hd : dest.toList.head? = some '/') (f : String) (hf : f ∈ fixedFlags t source dest dir rel) (p : String)
    (hp : p = "-O" ∨ p = "-mcpu=") : p.toList.isPrefixOf f.toList = false := by
  have hh : p.toList.head? = some '-' := by rcases hp with h | h <;> rw [h] <;> rfl
  have two : ∀ c r, f.toList = '-' :: c :: r → c ≠ 'O' → c ≠ 'm' → p.toList.isPrefixOf f.toList = false := by
    intro c r hr h1 h2
    rw [hr]
    rcases hp with h | h <;> rw [h] <;> simp [List.isPrefixOf, Ne.symm h1, Ne.symm h2]
  unfold fixedFlags at hf
  simp only [List.mem_append, List.mem_cons, List.not_mem_nil, or_false] at hf
  rcases hf with hf | hf | hf | hf | hf | hf | hf | hf | hf | hf | hf | hf | hf | hf
  · by_cases hl : t.linux = ""
    · rw [if_neg (by simp [hl])] at hf; cases hf
    · rw [if_pos hl] at hf
      have hf := List.mem_singleton.mp hf
      exact two 'D' _ (by rw [hf, String.toList_append]; rfl) (by decide) (by decide)
  · exact two 'W' _ (by rw [hf]; rfl) (by decide) (by decide)
  · exact two 't' _ (by rw [hf]; rfl) (by decide) (by decide)
  · rw [hf]; exact head_prefix _ _ 'b' (known_head t ht) hh (by decide)
  · exact two 'c' _ (by rw [hf]; rfl) (by decide) (by decide)
  · rw [hf]; exact head_prefix _ _ '/' hs hh (by decide)
  · exact two 'o' _ (by rw [hf]; rfl) (by decide) (by decide)
  · rw [hf]; exact head_prefix _ _ '/' hd hh (by decide)
  · exact two 'f' _ (by rw [hf]; rfl) (by decide) (by decide)
  · exact two 'f' _ (by rw [hf, String.toList_append]; rfl) (by decide) (by decide)
  · exact two 'f' _ (by rw [hf]; rfl) (by decide) (by decide)
  · rw [hf]; exact head_prefix _ _ '.' (by rfl) hh (by decide)
  · exact two 'g' _ (by rw [hf]; rfl) (by decide) (by decide)
  · exact two 'D' _ (by rw [hf, String.toList_append]; rfl) (by decide) (by decide)

theorem takeWhile_nodash (p : String) (hp : p.toList.head? = some '-') (l : List String) :
    lastWith p (l.takeWhile (fun f => !hasPrefix f "-")) = none := by
  refine lastWith_none _ _ ?_
  intro f hf
  have : hasPrefix f "-" = false := by
    have hall : ∀ (l : List String), ∀ f ∈ l.takeWhile (fun f => !hasPrefix f "-"), hasPrefix f "-" = false := by
      intro l
      induction l with
      | nil => simp
      | cons a l ih =>
        rw [List.takeWhile_cons]
        split
        · rename_i h
          intro f hf
          rcases List.mem_cons.mp hf with rfl | hf
          · simpa using h
          · exact ih f hf
        · simp
    exact hall l f hf
  unfold hasPrefix at this
  cases h1 : f.toList with
  | nil =>
    cases h2 : p.toList with
    | nil => rw [h2] at hp; cases hp
    | cons a as => rfl
  | cons b bs =>
    have hb : b ≠ '-' := by
      intro e
      rw [h1, e] at this
      exact absurd this (by simp [List.isPrefixOf])
    rw [← h1]
    exact head_prefix p f b (by rw [h1]; rfl) hp hb

theorem known_nonempty (t : Target) (h : t ∈ known) : t ≠ ⟨"", "", ""⟩ := by
  revert t
  decide

/-- **Precedence of flags.** The words of -cc come first, then -cflags, then the command line; the optimisation level and the CPU version are the
last ones given in these, and -O2 and v1 if none is given. Words before the first flag (as in "ccache clang") stay first. The flags for
the target, the source and the destination come last. -/
theorem flags_effective (cc split cmd : List String) (c : String) (flags : List String) (h : b2gFlags cc split cmd = some (c, flags))
    (host : String) (order : List (String × Target)) (id : String) (t : Target) (a : List String)
    (hf : findTarget host order id = some (t, a)) (source dest dir rel : String) (hs : source.toList.head? = some '/')
    (hd : dest.toList.head? = some '/') :
    cc ++ split ++ cmd = c :: flags ∧ (∀ f ∈ split ++ cmd, "-M".toList.isPrefixOf f.toList = false) ∧
    lastWith "-O" (compileArgs flags t source dest dir rel) = (lastWith "-O" flags).or (some "-O2") ∧
    lastWith "-mcpu=" (compileArgs flags t source dest dir rel) = (lastWith "-mcpu=" flags).or (some "-mcpu=v1") ∧
    (∀ pos rest, flags = pos ++ rest → (∀ f ∈ pos, f.toList.head? ≠ some '-') → pos <+: compileArgs flags t source dest dir rel) ∧
    (∃ pre post, compileArgs flags t source dest dir rel = pre ++ ["-target", t.clang, "-c", source, "-o", dest] ++ post ∧
      (∀ f ∈ post, "-f".toList.isPrefixOf f.toList = true ∨ f = "." ∨ f = "-g" ∨ "-D__BPF".toList.isPrefixOf f.toList = true) ∧
      (t.linux ≠ "" → "-D__TARGET_ARCH_" ++ t.linux ∈ pre)) := by
  have ht := findTarget_known host order id t a hf
  unfold b2gFlags at h
  cases cc with
  | nil => cases h
  | cons c' rest' =>
    dsimp only at h
    split at h
    · cases h
    · rename_i hm
      cases h
      have eff : ∀ (p d : String) (flags : List String), (p = "-O" ∧ d = "-O2") ∨ (p = "-mcpu=" ∧ d = "-mcpu=v1") →
          lastWith p (compileArgs flags t source dest dir rel) = (lastWith p flags).or (some d) := by
        intro p d flags hpd
        unfold compileArgs
        rw [if_neg (known_nonempty t ht), lastWith_append,
          lastWith_none p _ (fun f hf => fixed_prefix t ht source dest dir rel hs hd f hf p (by rcases hpd with ⟨h, _⟩ | ⟨h, _⟩ <;> simp [h]))]
        unfold insertDefaultFlags
        have hh : p.toList.head? = some '-' := by rcases hpd with ⟨h, _⟩ | ⟨h, _⟩ <;> rw [h] <;> rfl
        have hdef : lastWith p ["-O2", "-mcpu=v1"] = some d := by
          rcases hpd with ⟨h, h'⟩ | ⟨h, h'⟩ <;> rw [h, h'] <;> rfl
        have hflags : lastWith p flags = lastWith p (flags.dropWhile (fun f => !hasPrefix f "-")) := by
          conv => lhs; rw [← List.takeWhile_append_dropWhile (p := fun f => !hasPrefix f "-") (l := flags)]
          rw [lastWith_append, takeWhile_nodash p hh]
          simp
        rw [lastWith_append, lastWith_append, takeWhile_nodash p hh, hdef, hflags]
        simp
      refine ⟨by simp, ?_, eff _ _ _ (.inl ⟨rfl, rfl⟩), eff _ _ _ (.inr ⟨rfl, rfl⟩), ?_, ?_⟩
      · intro f hf
        simp only [List.any_eq_true, not_exists, not_and, Bool.not_eq_true, hasPrefix] at hm
        exact hm f hf
      · intro pos rest he hpos
        unfold compileArgs insertDefaultFlags
        rw [he]
        have : (pos ++ rest).takeWhile (fun f => !hasPrefix f "-") = pos ++ rest.takeWhile (fun f => !hasPrefix f "-") := by
          refine List.takeWhile_append_of_pos ?_
          intro f hf
          have := hpos f hf
          unfold hasPrefix
          cases h1 : f.toList with
          | nil => rfl
          | cons b bs =>
            rw [h1] at this
            have hb : b ≠ '-' := fun e => this (by rw [e]; rfl)
            simp [List.isPrefixOf, Ne.symm hb]
        rw [this]
        simp only [List.append_assoc]
        exact List.prefix_append _ _
      · unfold compileArgs fixedFlags
        rw [if_neg (known_nonempty t ht)]
        refine ⟨insertDefaultFlags (rest' ++ (split ++ cmd)) ++ ((if t.linux ≠ "" then ["-D__TARGET_ARCH_" ++ t.linux] else []) ++
          ["-Wunused-command-line-argument"]), ["-fno-ident", "-fdebug-prefix-map=" ++ (dir ++ ("=" ++ rel)), "-fdebug-compilation-dir", ".",
          "-g", "-D__BPF_TARGET_MISSING=" ++ missing], by simp only [List.append_assoc, List.cons_append, List.nil_append], ?_, ?_⟩
        · intro f hf
          simp only [List.mem_cons, List.not_mem_nil, or_false] at hf
          rcases hf with h | h | h | h | h | h
          · left; rw [h]; rfl
          · left; rw [h, String.toList_append]; rfl
          · left; rw [h]; rfl
          · exact .inr (.inl h)
          · exact .inr (.inr (.inl h))
          · right; right; right; rw [h, String.toList_append]; rfl
        · intro hl
          simp [hl]

example : b2gFlags ["ccache", "clang"] ["-O1"] ["-mcpu=v3"] = some ("ccache", ["clang", "-O1", "-mcpu=v3"]) := by decide
example : Good ⟨[], "Prog".toList, "_test".toList, some (.tag "linux")⟩ := by
  refine ⟨⟨?_, ?_, ?_⟩, .inr rfl⟩ <;> decide
example : (newTargets "arm64" table ["amd64", "native", "386"] []).map (·.map (·.1.linux)) = some ["x86", "arm64"] := by decide

end Ebpf.Targets
