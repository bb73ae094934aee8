import Verif.Props.CoreField
import Verif.Props.CoreCompat
import Verif.Props.CoreMatch
import Verif.Props.CoreFixup
/-!
# Whole relocations: enum values, type checks, and what happens when there is no counterpart (C34, C35); counterexamples
-/
namespace Ebpf.Btf
open Ebpf.BtfSpec Ebpf.Core
variable {R : Type}

/-! ## Enum values -/

theorem sameEssential_iff (a b : Bytes) : SameEssential a b ↔ newEssentialName a = newEssentialName b := by
  obtain ⟨a1, a2, _⟩ := essentialName_exact a
  obtain ⟨b1, b2, _⟩ := essentialName_exact b
  have ex : ∀ s : Bytes, (∀ e, Flavoured s e → newEssentialName s = e) → ((∀ e, ¬ Flavoured s e) → newEssentialName s = s) →
      ∀ e, (Flavoured s e ∨ ((∀ x, ¬ Flavoured s x) ∧ e = s)) ↔ e = newEssentialName s := by
    intro s h1 h2 e
    constructor
    · rintro (h | ⟨h, rfl⟩)
      · exact (h1 e h).symm
      · exact (h2 h).symm
    · rintro rfl
      by_cases h : ∃ x, Flavoured s x
      · obtain ⟨x, hx⟩ := h; left; rw [h1 x hx]; exact hx
      · right; refine ⟨fun x hx => h ⟨x, hx⟩, h2 fun x hx => h ⟨x, hx⟩⟩
  unfold SameEssential
  constructor
  · rintro ⟨e, h1, h2⟩
    rw [ex a a1 a2] at h1; rw [ex b b1 b2] at h2
    rw [← h1, ← h2]
  · intro h
    exact ⟨newEssentialName a, (ex a a1 a2 _).2 rfl, (ex b b1 b2 _).2 h⟩

theorem enum_of {n : Node R} (h : isEnum n = true) : ∃ nm s sg vs, n = .enum nm s sg vs := by
  cases n <;> simp [isEnum] at h
  exact ⟨_, _, _, _, rfl⟩

theorem asEnum (g : Graph R) (t u : R) : asType g isEnum t = some u ↔ Underlies g t u ∧ isEnum (g u) = true :=
  asType_underlies g isEnum (by intro n; cases n <;> simp [isEnum, Node.peel?, Node.qualify?]) ..

theorem find_first {α : Type} (p : α → Bool) : ∀ (l : List α) (x : α), l.find? p = some x →
    ∃ i : Nat, l[i]? = some x ∧ p x = true ∧ ∀ (j : Nat) y, j < i → l[j]? = some y → p y = false
  | [], x, h => by simp at h
  | a :: l, x, h => by
    rw [List.find?_cons] at h
    split at h
    · next ha => injection h with h; subst h; exact ⟨0, rfl, ha, fun j _ hj => absurd hj (by omega)⟩
    · next ha =>
      obtain ⟨i, h1, h2, h3⟩ := find_first p l x h
      refine ⟨i + 1, by simpa using h1, h2, ?_⟩
      intro j y hj hy
      cases j with
      | zero => simp at hy; subst hy; exact ha
      | succ j => exact h3 j y (by omega) (by simpa using hy)

/-- The outcomes of the enum lookup, in terms of the types. -/
theorem findEnumValue_cases (g : Graph R) (l : R) (acc : Nat) (accs : List Nat) (t : R) :
    match findEnumValue g l acc accs t with
    | .ok (lv, tv) => accs = [] ∧ EnumAt g l acc lv ∧ ∃ j, EnumAt g t j tv ∧ SameEssential tv.name lv.name ∧
        ∀ k v, k < j → EnumAt g t k v → ¬ SameEssential v.name lv.name
    | .error .impossible => accs = [] ∧ ∃ lv, EnumAt g l acc lv ∧ ∀ k v, EnumAt g t k v → ¬ SameEssential v.name lv.name
    | .error .other => accs ≠ [] ∨ ∀ v, ¬ EnumAt g l acc v := by
  unfold findEnumValue
  cases he : asType g isEnum l with
  | none =>
    right
    rintro v ⟨e, n, s, sg, vs, hu, hg, _⟩
    have : asType g isEnum l = some e := (asEnum g l e).2 ⟨hu, by rw [hg]; rfl⟩
    rw [he] at this; cases this
  | some e =>
    simp only
    by_cases ha : accs = []
    case neg => rw [if_pos ha]; exact Or.inl ha
    rw [if_neg (by simpa using ha)]
    rw [asEnum] at he
    obtain ⟨n, s, sg, vs, hn⟩ := enum_of he.2
    have hv : (g e).values = vs := by rw [hn]; rfl
    rw [hv]
    cases hl : vs[acc]? with
    | none =>
      right
      rintro v ⟨e', n', s', sg', vs', hu, hg, hv'⟩
      obtain rfl := underlies_unique he.1 hu
      rw [hn] at hg; injection hg with _ _ _ hvs; subst hvs
      rw [hl] at hv'; cases hv'
    | some lv =>
      have hlv : EnumAt g l acc lv := ⟨e, n, s, sg, vs, he.1, hn, hl⟩
      cases ht : asType g isEnum t with
      | none =>
        refine ⟨ha, lv, hlv, ?_⟩
        rintro k v ⟨e', n', s', sg', vs', hu, hg, _⟩
        have : asType g isEnum t = some e' := (asEnum g t e').2 ⟨hu, by rw [hg]; rfl⟩
        rw [ht] at this; cases this
      | some te =>
        rw [asEnum] at ht
        obtain ⟨n', s', sg', vs', hn'⟩ := enum_of ht.2
        have hv' : (g te).values = vs' := by rw [hn']; rfl
        have inv : ∀ k v, EnumAt g t k v → vs'[k]? = some v := by
          rintro k v ⟨e2, n2, s2, sg2, vs2, hu, hg, hv2⟩
          obtain rfl := underlies_unique ht.1 hu
          rw [hn'] at hg; injection hg with _ _ _ hvs; subst hvs
          exact hv2
        simp only [hv']
        cases hf : vs'.find? (fun tv => newEssentialName tv.name = newEssentialName lv.name) with
        | some tv =>
          obtain ⟨j, h1, h2, h3⟩ := find_first _ _ _ hf
          refine ⟨ha, hlv, j, ⟨te, n', s', sg', vs', ht.1, hn', h1⟩, ?_, ?_⟩
          · rw [sameEssential_iff]; simpa using h2
          · intro k v hk hv; rw [sameEssential_iff]; simpa using h3 k v hk (inv k v hv)
        | none =>
          refine ⟨ha, lv, hlv, ?_⟩
          intro k v hv
          rw [sameEssential_iff]
          have := List.find?_eq_none.1 hf v (List.mem_of_getElem? (inv k v hv))
          simpa using this

/-- C35: an enum relocation yields the value the accessor names and that of the first value of the target enum of the same name, ignoring
flavours. -/
theorem enumvalValue_ok (g : Graph R) [DecidableEq R] (fuel : Nat) (le : Bool) (resolve : R → IDResult) (relo : Relo R) (t : R) (f : Fixup)
    (hk : relo.kind = .enumvalValue) (h : calculateFixup g fuel le resolve relo t = some (.ok f)) (hp : f.poison = false) :
    relo.accs = [] ∧ ∃ lv tv j, EnumAt g relo.typ relo.acc lv ∧ EnumAt g t j tv ∧ SameEssential tv.name lv.name ∧
      (∀ k v, k < j → EnumAt g t k v → ¬ SameEssential v.name lv.name) ∧ f = ⟨.enumvalValue, lv.value, tv.value, false, false⟩ := by
  have hc := findEnumValue_cases g relo.typ relo.acc relo.accs t
  unfold calculateFixup at h
  rw [hk] at h
  simp only at h
  split at h
  · simp only [Option.some.injEq, Except.ok.injEq] at h; subst h; simp [poison, Kind.checksForExistence] at hp
  · cases h
  · next lv tv he =>
    rw [he] at hc
    obtain ⟨h1, h2, j, h3, h4, h5⟩ := hc
    simp only [Option.some.injEq, Except.ok.injEq] at h
    exact ⟨h1, lv, tv, j, h2, h3, h4, h5, h.symm⟩

/-- C35: an enum value relocation without a counterpart is poisoned, the existence check is zero; with one it is one. -/
theorem enumval_exists (g : Graph R) [DecidableEq R] (fuel : Nat) (le : Bool) (resolve : R → IDResult) (relo : Relo R) (t : R) (f : Fixup)
    (lv : EnumValue) (hl : EnumAt g relo.typ relo.acc lv) (h : calculateFixup g fuel le resolve relo t = some (.ok f)) :
    (relo.kind = .enumvalExists → f = ⟨.enumvalExists, 1, f.target, false, false⟩ ∧
      (f.target = 1 ↔ ∃ k v, EnumAt g t k v ∧ SameEssential v.name lv.name) ∧ (f.target = 0 ↔ ¬ ∃ k v, EnumAt g t k v ∧ SameEssential v.name lv.name)) ∧
    (relo.kind = .enumvalValue → (f.poison = true ↔ ¬ ∃ k v, EnumAt g t k v ∧ SameEssential v.name lv.name)) := by
  have hc := findEnumValue_cases g relo.typ relo.acc relo.accs t
  have uniq : ∀ v, EnumAt g relo.typ relo.acc v → v = lv := by
    rintro v ⟨e, n, s, sg, vs, hu, hg, hv⟩
    obtain ⟨e', n', s', sg', vs', hu', hg', hv'⟩ := hl
    obtain rfl := underlies_unique hu hu'
    rw [hg] at hg'; injection hg' with _ _ _ hvs; subst hvs
    rw [hv] at hv'; injection hv'
  constructor <;> intro hk
  all_goals
    unfold calculateFixup at h
    rw [hk] at h
    simp only at h
    split at h
    · next he =>
      rw [he] at hc
      obtain ⟨_, v, h1, h2⟩ := hc
      obtain rfl := uniq v h1
      have hno : ¬ ∃ k w, EnumAt g t k w ∧ SameEssential w.name v.name := by rintro ⟨k, w, h3, h4⟩; exact h2 k w h3 h4
      simp only [Option.some.injEq, Except.ok.injEq] at h; subst h
      simp [poison, Kind.checksForExistence]
      intro k w hw; exact h2 k w hw
    · cases h
    · next he =>
      simp only [he] at hc
      obtain ⟨_, h1, j, h3, h4, _⟩ := hc
      obtain rfl := uniq _ h1
      simp only [Option.some.injEq, Except.ok.injEq] at h; subst h
      simp
      exact ⟨j, _, h3, h4⟩

/-! ## Relocations against whole types -/

section
variable [DecidableEq R]

/-- C36: existence, size and ID of a type: the answer for a target is decided by compatibility. -/
theorem typeBased_ok (g : Graph R) (fuel : Nat) (le : Bool) (resolve : R → IDResult) (relo : Relo R) (t : R) (f : Fixup)
    (h : calculateFixup g fuel le resolve relo t = some (.ok f)) :
    (relo.kind = .typeExists → f = ⟨.typeExists, 1, f.target, false, false⟩ ∧
      (f.target = 1 ↔ Compatible g relo.typ t) ∧ (f.target = 0 ↔ ¬ Compatible g relo.typ t)) ∧
    (relo.kind = .typeSize → (f.poison = true ↔ ¬ Compatible g relo.typ t) ∧
      (f.poison = false → ∃ a b, (∃ d, HasSize g d relo.typ a) ∧ (∃ d, HasSize g d t b) ∧ f = ⟨.typeSize, BitVec.ofNat 64 a, BitVec.ofNat 64 b, false, false⟩)) ∧
    (relo.kind = .typeIDTarget → f.poison = false → Compatible g relo.typ t ∧
      ∃ n, resolve t = .id n ∧ f = ⟨.typeIDTarget, relo.id.setWidth 64, n.setWidth 64, false, false⟩) := by
  refine ⟨?_, ?_, ?_⟩ <;> intro hk
  all_goals
    unfold calculateFixup at h
    rw [hk] at h
    simp only at h
    split at h
    · cases h
    split at h
    · cases h
  · next vis hc =>
    have := (compatible_exact g fuel _ _ _ _ hc).1 rfl
    simp only [Option.some.injEq, Except.ok.injEq] at h; subst h
    simp [this]
  · next vis hc =>
    have : ¬ Compatible g relo.typ t := fun hn => by have := (compatible_exact g fuel _ _ _ _ hc).2 hn; cases this
    simp only [Option.some.injEq, Except.ok.injEq] at h; subst h
    simp [this, poison, Kind.checksForExistence]
  · cases h
  · next vis hc =>
    have := (compatible_exact g fuel _ _ _ _ hc).1 rfl
    split at h
    case h_2 => cases h
    next a b ha hb =>
    simp only [Option.some.injEq, Except.ok.injEq] at h; subst h
    refine ⟨by simp [this], fun _ => ⟨a, b, (sizeof_exact g _ _ ha).1, (sizeof_exact g _ _ hb).1, rfl⟩⟩
  · next vis hc =>
    have : ¬ Compatible g relo.typ t := fun hn => by have := (compatible_exact g fuel _ _ _ _ hc).2 hn; cases this
    simp only [Option.some.injEq, Except.ok.injEq] at h; subst h
    simp [this, poison, Kind.checksForExistence]
  · cases h
  · next vis hc =>
    intro hp
    have := (compatible_exact g fuel _ _ _ _ hc).1 rfl
    split at h
    · simp only [Option.some.injEq, Except.ok.injEq] at h; subst h; simp [poison, Kind.checksForExistence] at hp
    · cases h
    · next n hr =>
      simp only [Option.some.injEq, Except.ok.injEq] at h; subst h
      exact ⟨this, n, hr, rfl⟩
  · intro hp
    simp only [Option.some.injEq, Except.ok.injEq] at h; subst h; simp [poison, Kind.checksForExistence] at hp
  · cases h

/-- C57: `bpf_core_type_matches`. -/
theorem typeMatches_ok (g : Graph R) (hg : UniqueMembers g) (fuel : Nat) (le : Bool) (resolve : R → IDResult) (relo : Relo R) (t : R) (f : Fixup)
    (hk : relo.kind = .typeMatches) (h : calculateFixup g fuel le resolve relo t = some (.ok f)) :
    f = ⟨.typeMatches, 1, f.target, false, false⟩ ∧ (f.target = 1 ↔ Matches g relo.typ t) ∧ (f.target = 0 ↔ ¬ Matches g relo.typ t) := by
  unfold calculateFixup at h
  rw [hk] at h
  simp only at h
  split at h
  · cases h
  split at h
  · cases h
  · next vis hc =>
    have := (typesMatch_exact_partial g hg fuel _ _ _ _ hc).1 rfl
    simp only [Option.some.injEq, Except.ok.injEq] at h; subst h
    simp [this]
  · next vis hc =>
    have : ¬ Matches g relo.typ t := fun hn => by have := (typesMatch_exact_partial g hg fuel _ _ _ _ hc).2 hn; cases this
    simp only [Option.some.injEq, Except.ok.injEq] at h; subst h
    simp [this, poison, Kind.checksForExistence]
  · cases h

/-! ## Relocations against fields -/

/-- `t` is a forward declaration. -/
def IsFwd (g : Graph R) (t : R) : Prop := ∃ u n k, Underlies g t u ∧ g u = .fwd n k

/-- Why a field has no counterpart: the types don't go together, or at some point of the access path the target has nothing of that name or
index, or something of an incompatible type. -/
def NoCounterpart (g : Graph R) (l : R) (acc : Nat) (accs : List Nat) (t : R) : Prop :=
  (¬ FieldCompat g l t) ∨
  (∃ pre i post path lt tt lo to, accs = pre ++ i :: post ∧ Access g l (acc :: pre) path lt lo 0 ∧ Path g t path tt to 0 ∧ NoStep g lt tt i) ∨
  (∃ pre post path lt tt lo to lb tb, accs = pre ++ post ∧ Access g l (acc :: pre) path lt lo lb ∧ Path g t path tt to tb ∧ ¬ FieldCompat g lt tt)

/-- C35: whether a field exists and where it is. A field existence check yields one only if following the path by name in the target leads
to a field of compatible type, and zero only if there is none; an offset relocation yields the offsets of those fields, or poison if there is
none. -/
theorem field_ok (g : Graph R) (hg : ByteAligned g) (fuel : Nat) (le : Bool) (resolve : R → IDResult) (relo : Relo R) (t : R) (f : Fixup)
    (h : calculateFixup g fuel le resolve relo t = some (.ok f)) :
    (relo.kind = .fieldExists →
      (f = ⟨.fieldExists, 1, 1, false, false⟩ ∧ ∃ path lt tt lo to lb tb, Access g relo.typ (relo.acc :: relo.accs) path lt lo lb ∧
        Path g t path tt to tb ∧ FieldCompat g lt tt) ∨
      (f = ⟨.fieldExists, 1, 0, false, false⟩ ∧ (IsFwd g t ∨ NoCounterpart g relo.typ relo.acc relo.accs t))) ∧
    (relo.kind = .byteOffset →
      (f.poison = false ∧ ∃ path lt tt lo to lb tb, Access g relo.typ (relo.acc :: relo.accs) path lt lo lb ∧
        Path g t path tt to tb ∧ FieldCompat g lt tt ∧ 
        (lb = 0 → tb = 0 → (lo < 2 ^ 32 → f.loc.toNat * 8 = lo) ∧ (to < 2 ^ 32 → f.target.toNat * 8 = to))) ∨
      (f.poison = true ∧ (IsFwd g t ∨ NoCounterpart g relo.typ relo.acc relo.accs t))) := by
  refine ⟨?_, ?_⟩ <;> intro hk
  all_goals
    unfold calculateFixup at h
    rw [hk] at h
    simp only at h
    split at h
    · next hf =>
      simp only [Option.some.injEq, Except.ok.injEq] at h; subst h
      right
      refine ⟨by simp [poison, Kind.checksForExistence], Or.inl ?_⟩
      rw [Option.isSome_iff_exists] at hf
      obtain ⟨u, hu⟩ := hf
      rw [asType_underlies g _ (by intro n; cases n <;> simp [Node.peel?, Node.qualify?])] at hu
      obtain ⟨hu, hn⟩ := hu
      cases hgu : g u <;> simp [hgu] at hn
      exact ⟨u, _, _, hu, hgu⟩
    split at h
    · next he =>
      simp only [Option.some.injEq, Except.ok.injEq] at h; subst h
      right
      exact ⟨by simp [poison, Kind.checksForExistence], Or.inr (findField_impossible g hg fuel _ _ _ _ he)⟩
    · cases h
  · next l t' hf =>
    simp only [fieldFixup, Option.some.injEq, Except.ok.injEq] at h; subst h
    obtain ⟨path, lo, to, h1, h2, _, _, h5, _⟩ := findField_sound g hg fuel _ _ _ _ _ _ hf
    exact Or.inl ⟨rfl, path, _, _, lo, to, _, _, h1, h2, h5⟩
  · next l t' hf =>
    simp only [fieldFixup, Option.some.injEq, Except.ok.injEq] at h; subst h
    obtain ⟨path, lo, to, h1, h2, h3, h4, h5, h6⟩ := findField_sound g hg fuel _ _ _ _ _ _ hf
    have e : ∀ x : BitVec 32, (x.setWidth 64).toNat = x.toNat := by
      intro x; rw [BitVec.toNat_setWidth, Nat.mod_eq_of_lt (by have := x.isLt; omega)]
    have z : ∀ x : BitVec 32, x.toNat = 0 → x = 0 := fun x h => BitVec.eq_of_toNat_eq (by simpa using h)
    refine Or.inl ⟨rfl, path, _, _, lo, to, _, _, h1, h2, h5, ?_⟩
    intro hl ht
    obtain ⟨z1, z2⟩ := h6 (z _ hl) (z _ ht)
    rw [z1] at h3; rw [z2] at h4
    simp only [e]
    exact ⟨fun h => by simpa using h3 h, fun h => by simpa using h4 h⟩

/-- C36, C57: relocations against a whole type have the accessor 0, anything else is an error. -/
theorem typeBased_accessor (g : Graph R) (fuel : Nat) (le : Bool) (resolve : R → IDResult) (relo : Relo R) (t : R) (f : Fixup)
    (hk : relo.kind = .typeExists ∨ relo.kind = .typeSize ∨ relo.kind = .typeIDTarget ∨ relo.kind = .typeMatches)
    (h : calculateFixup g fuel le resolve relo t = some (.ok f)) : relo.acc = 0 ∧ relo.accs = [] := by
  unfold calculateFixup at h
  rcases hk with hk | hk | hk | hk <;> rw [hk] at h <;> simp only at h <;> split at h <;>
    first | (cases h; done) | (next hn => exact ⟨Classical.byContradiction fun c => hn (Or.inr c), Classical.byContradiction fun c => hn (Or.inl c)⟩)

/-- C35: the size of a field, and when the value in the instruction is not compared with the local one: offsets and sizes of bitfields, and
all shifts. -/
theorem field_value_ok (g : Graph R) (hg : ByteAligned g) (fuel : Nat) (le : Bool) (resolve : R → IDResult) (relo : Relo R) (t : R) (f : Fixup)
    (h : calculateFixup g fuel le resolve relo t = some (.ok f)) (hp : f.poison = false) :
    ((relo.kind = .byteOffset ∨ relo.kind = .byteSize) → ∃ path lt tt lo to lb tb, Access g relo.typ (relo.acc :: relo.accs) path lt lo lb ∧
        Path g t path tt to tb ∧ FieldCompat g lt tt ∧ (f.skipLocalValidation = true ↔ lb ≠ 0) ∧
        (relo.kind = .byteSize → ∃ a b, (∃ d, HasSize g d lt a) ∧ (∃ d, HasSize g d tt b) ∧ f.loc = BitVec.ofNat 64 a ∧ f.target = BitVec.ofNat 64 b)) ∧
    ((relo.kind = .lshift ∨ relo.kind = .rshift) → f.skipLocalValidation = true) ∧
    (relo.kind = .signed → f.skipLocalValidation = false) := by
  have z : ∀ x : BitVec 32, x.toNat = 0 ↔ x = 0 := fun x => ⟨fun h => BitVec.eq_of_toNat_eq (by simpa using h), fun h => by rw [h]; rfl⟩
  refine ⟨?_, ?_, ?_⟩
  · intro hk
    rcases hk with hk | hk
    all_goals
      unfold calculateFixup at h
      rw [hk] at h
      simp only at h
      split at h
      · simp only [Option.some.injEq, Except.ok.injEq] at h; subst h; simp [poison, Kind.checksForExistence] at hp
      split at h
      · simp only [Option.some.injEq, Except.ok.injEq] at h; subst h; simp [poison, Kind.checksForExistence] at hp
      · cases h
    · next l t' hf =>
      simp only [fieldFixup, Option.some.injEq, Except.ok.injEq] at h; subst h
      obtain ⟨path, lo, to, h1, h2, _, _, h5, _⟩ := findField_sound g hg fuel _ _ _ _ _ _ hf
      refine ⟨path, _, _, lo, to, _, _, h1, h2, h5, ?_, fun hs => by rw [hk] at hs; cases hs⟩
      simp only [bne_iff_ne, ne_eq, z]
    · next l t' hf =>
      simp only [fieldFixup, Option.some.injEq] at h
      obtain ⟨path, lo, to, h1, h2, _, _, h5, _⟩ := findField_sound g hg fuel _ _ _ _ _ _ hf
      split at h
      · next a b ha hb =>
        simp only [Except.ok.injEq] at h; subst h
        refine ⟨path, _, _, lo, to, _, _, h1, h2, h5, ?_, fun _ => ⟨a, b, (sizeof_exact g _ _ ha).1, (sizeof_exact g _ _ hb).1, rfl, rfl⟩⟩
        simp only [bne_iff_ne, ne_eq, z]
      · cases h
  · intro hk
    rcases hk with hk | hk
    all_goals
      unfold calculateFixup at h
      rw [hk] at h
      simp only at h
      split at h
      · simp only [Option.some.injEq, Except.ok.injEq] at h; subst h; simp [poison, Kind.checksForExistence] at hp
      split at h
      · simp only [Option.some.injEq, Except.ok.injEq] at h; subst h; simp [poison, Kind.checksForExistence] at hp
      · cases h
      · simp only [fieldFixup, Option.some.injEq] at h
        split at h
        · cases h
        · simp only [Except.ok.injEq] at h; subst h; rfl
  · intro hk
    unfold calculateFixup at h
    rw [hk] at h
    simp only at h
    split at h
    · simp only [Option.some.injEq, Except.ok.injEq] at h; subst h; rfl
    split at h
    · simp only [Option.some.injEq, Except.ok.injEq] at h; subst h; rfl
    · cases h
    · simp only [fieldFixup, Option.some.injEq] at h
      split at h
      · cases h
      · simp only [Except.ok.injEq] at h; subst h; rfl

end

end Ebpf.Btf
