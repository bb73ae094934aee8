import Verif.Spec.BtfMaps
import Verif.Props.BtfTypes
/-!
# C71: BTF map definitions give the map they describe
-/
namespace Ebpf.BtfMap
open Ebpf.Btf Ebpf.BtfSpec Ebpf.BtfMapSpec
section
variable {R I : Type}

theorem fieldOf_iff (n : Bytes) (f : Field) : fieldOf n = some f ↔ n = ascii (fieldName f) := by
  constructor
  · intro h
    have := List.find?_some h
    simpa using (of_decide_eq_true this).symm
  · rintro rfl
    cases f <;> decide

/-- The last member with the name of the field. -/
def val (ms : List (Member R)) (f : Field) : Option (Member R) := ms.reverse.find? fun m => fieldOf m.name = some f

theorem val_snoc (ms : List (Member R)) (m : Member R) (f : Field) :
    val (ms ++ [m]) f = if fieldOf m.name = some f then some m else val ms f := by
  unfold val
  rw [List.reverse_append, List.reverse_singleton, List.singleton_append, List.find?_cons]
  by_cases h : fieldOf m.name = some f <;> simp [h]

theorem val_some {ms : List (Member R)} {f : Field} {m : Member R} (h : val ms f = some m) : Decl ms f m := by
  unfold val at h
  exact ⟨List.mem_reverse.1 (List.mem_of_find?_eq_some h), (fieldOf_iff _ _).1 (by simpa using List.find?_some h)⟩

theorem val_none {ms : List (Member R)} {f : Field} (h : val ms f = none) : Absent ms f := by
  intro m hm
  unfold val at h
  have := List.find?_eq_none.1 h m (List.mem_reverse.2 hm.1)
  exact this (by simpa using (fieldOf_iff _ _).2 hm.2)

theorem decl_unique {ms : List (Member R)} (hn : (ms.map (·.name)).Nodup) {f : Field} {a b : Member R} (ha : Decl ms f a) (hb : Decl ms f b) : a = b := by
  have key : ∀ (l : List (Member R)), (l.map (·.name)).Nodup → a ∈ l → b ∈ l → a.name = b.name → a = b := by
    intro l
    induction l with
    | nil => intro _ h; cases h
    | cons x xs ih =>
      intro hnd h1 h2 he
      simp only [List.map_cons, List.nodup_cons] at hnd
      rcases List.mem_cons.1 h1 with e1 | e1
      · rcases List.mem_cons.1 h2 with e2 | e2
        · rw [e1, e2]
        · exact absurd (List.mem_map.2 ⟨b, e2, by rw [← he, e1]⟩) hnd.1
      · rcases List.mem_cons.1 h2 with e2 | e2
        · exact absurd (List.mem_map.2 ⟨a, e1, by rw [he, e2]⟩) hnd.1
        · exact ih hnd.2 e1 e2 he
  exact key ms hn ha.1 hb.1 (ha.2.trans hb.2.symm)

theorem val_decl {ms : List (Member R)} (hn : (ms.map (·.name)).Nodup) {f : Field} {m : Member R} (h : Decl ms f m) : val ms f = some m := by
  cases hv : val ms f with
  | none => exact absurd h (val_none hv m)
  | some m' => rw [decl_unique hn h (val_some hv)]

theorem val_absent {ms : List (Member R)} {f : Field} (h : Absent ms f) : val ms f = none := by
  cases hv : val ms f with
  | none => rfl
  | some m' => exact absurd (val_some hv) (h m')

variable (g : Graph R)

/-- The number that was read, 0 if there was none. -/
def UOpt (o : Option (Member R)) (n : BitVec 64) : Prop :=
  match o with
  | none => n = 0#64
  | some m => uintFromBTF g m.type = .ok n

/-- Type and size that were read. -/
def TOpt (o os : Option (Member R)) (t : Option R) (n : BitVec 64) : Prop :=
  match o with
  | none => t = none ∧ UOpt g os n
  | some m => ∃ a, pointee g m.type = .ok (a, n) ∧ t = some a

/-- What the state is after the members `pre`. -/
structure Inv (p : Place) (inner : Bool) (resolveInner : R → Except Err I) (pre : List (Member R)) (st : State R I) : Prop where
  type : ∃ n, UOpt g (val pre .type) n ∧ st.mapType = n.setWidth 32
  flags : UOpt g (val pre .mapFlags) st.flags
  maxEntries : UOpt g (val pre .maxEntries) st.maxEntries
  pinning : ∃ n, UOpt g (val pre .pinning) n ∧ st.pinType = n.setWidth 32
  mapExtra : UOpt g (val pre .mapExtra) st.mapExtra
  key : TOpt g (val pre .key) (val pre .keySize) st.key st.keySize
  value : ∃ n, TOpt g (val pre .value) (val pre .valueSize) st.value n ∧
    (match val pre .values with | none => st.valueSize = n | some _ => st.valueSize = 4#64)
  rest : match val pre .values with
    | none => st.contents = [] ∧ st.inner = none
    | some m => resolveBTFValuesContents p m.offset = .ok st.contents ∧ ∃ t, resolveBTFArrayMacro g m.type = .ok t ∧
      ((∃ nm s mm tg i, g t = .struct nm s mm tg ∧ (st.mapType = 12#32 ∨ st.mapType = 13#32) ∧ inner = false ∧ st.inner = some i ∧ resolveInner t = .ok i) ∨
       (∃ rt ps, g t = .funcProto rt ps ∧ st.mapType = 3#32 ∧ st.inner = none))

theorem inv_init (p : Place) (inner : Bool) (ri : R → Except Err I) : Inv g p inner ri [] State.init where
  type := ⟨0#64, rfl, rfl⟩
  flags := rfl
  maxEntries := rfl
  pinning := ⟨0#64, rfl, rfl⟩
  mapExtra := rfl
  key := ⟨rfl, rfl⟩
  value := ⟨0#64, ⟨rfl, rfl⟩, rfl⟩
  rest := ⟨rfl, rfl⟩

theorem step_inv {p : Place} {inner : Bool} {ri : R → Except Err I} {pre : List (Member R)} {st st' : State R I} {m : Member R} {last : Bool}
    (hi : Inv g p inner ri pre st) (hv : val pre .values = none) (h : step g p inner ri last st m = .ok st') :
    Inv g p inner ri (pre ++ [m]) st' ∧ (val (pre ++ [m]) .values ≠ none → last = true) := by
  obtain ⟨i1, i2, i3, i4, i5, i6, ⟨vn, i7, i7'⟩, i8⟩ := hi
  rw [hv] at i7' i8
  simp only at i7' i8
  unfold step at h
  cases hf : fieldOf m.name with
  | none => rw [hf] at h; cases h
  | some f =>
    rw [hf] at h
    have hval : ∀ f', val (pre ++ [m]) f' = if f = f' then some m else val pre f' := by
      intro f'
      rw [val_snoc, hf]
      simp only [Option.some.injEq]
    cases f <;> simp only at h
    case type =>
      split at h
      · cases h
      · rename_i n hn
        cases h
        refine ⟨?_, ?_⟩
        · constructor <;> simp only [hval, reduceCtorEq, if_false, if_true, hv]
          · exact ⟨n, hn, rfl⟩
          · exact i2
          · exact i3
          · exact i4
          · exact i5
          · exact i6
          · exact ⟨vn, i7, i7'⟩
          · exact i8
        · simp [hval, hv]
    case mapFlags =>
      split at h
      · cases h
      · rename_i n hn
        cases h
        refine ⟨?_, ?_⟩
        · constructor <;> simp only [hval, reduceCtorEq, if_false, if_true, hv]
          · exact i1
          · exact hn
          · exact i3
          · exact i4
          · exact i5
          · exact i6
          · exact ⟨vn, i7, i7'⟩
          · exact i8
        · simp [hval, hv]
    case maxEntries =>
      split at h
      · cases h
      · rename_i n hn
        cases h
        refine ⟨?_, ?_⟩
        · constructor <;> simp only [hval, reduceCtorEq, if_false, if_true, hv]
          · exact i1
          · exact i2
          · exact hn
          · exact i4
          · exact i5
          · exact i6
          · exact ⟨vn, i7, i7'⟩
          · exact i8
        · simp [hval, hv]
    case mapExtra =>
      split at h
      · cases h
      · rename_i n hn
        cases h
        refine ⟨?_, ?_⟩
        · constructor <;> simp only [hval, reduceCtorEq, if_false, if_true, hv]
          · exact i1
          · exact i2
          · exact i3
          · exact i4
          · exact hn
          · exact i6
          · exact ⟨vn, i7, i7'⟩
          · exact i8
        · simp [hval, hv]
    case pinning =>
      split at h
      · cases h
      · split at h
        · cases h
        · rename_i n hn
          cases h
          refine ⟨?_, ?_⟩
          · constructor <;> simp only [hval, reduceCtorEq, if_false, if_true, hv]
            · exact i1
            · exact i2
            · exact i3
            · exact ⟨n, hn, rfl⟩
            · exact i5
            · exact i6
            · exact ⟨vn, i7, i7'⟩
            · exact i8
          · simp [hval, hv]
    case key =>
      split at h
      · cases h
      · split at h
        · cases h
        · rename_i a n hn
          cases h
          refine ⟨?_, ?_⟩
          · constructor <;> simp only [hval, reduceCtorEq, if_false, if_true, hv]
            · exact i1
            · exact i2
            · exact i3
            · exact i4
            · exact i5
            · exact ⟨a, hn, rfl⟩
            · exact ⟨vn, i7, i7'⟩
            · exact i8
          · simp [hval, hv]
    case value =>
      split at h
      · cases h
      · split at h
        · cases h
        · rename_i a n hn
          cases h
          refine ⟨?_, ?_⟩
          · constructor <;> simp only [hval, reduceCtorEq, if_false, if_true, hv]
            · exact i1
            · exact i2
            · exact i3
            · exact i4
            · exact i5
            · exact i6
            · exact ⟨n, ⟨a, hn, rfl⟩, rfl⟩
            · exact i8
          · simp [hval, hv]
    case keySize =>
      split at h
      · cases h
      · rename_i hc
        simp only [not_or, Bool.not_eq_true, Option.isSome_eq_false_iff, Option.isNone_iff_eq_none] at hc
        split at h
        · cases h
        · rename_i n hn
          cases h
          refine ⟨?_, ?_⟩
          · constructor <;> simp only [hval, reduceCtorEq, if_false, if_true, hv]
            · exact i1
            · exact i2
            · exact i3
            · exact i4
            · exact i5
            · unfold TOpt at i6 ⊢
              cases hk : val pre .key with
              | none => exact ⟨hc.1, hn⟩
              | some m' =>
                rw [hk] at i6
                obtain ⟨a, _, ha⟩ := i6
                rw [ha] at hc
                cases hc.1
            · exact ⟨vn, i7, i7'⟩
            · exact i8
          · simp [hval, hv]
    case valueSize =>
      split at h
      · cases h
      · rename_i hc
        simp only [not_or, Bool.not_eq_true, Option.isSome_eq_false_iff, Option.isNone_iff_eq_none] at hc
        split at h
        · cases h
        · rename_i n hn
          cases h
          refine ⟨?_, ?_⟩
          · constructor <;> simp only [hval, reduceCtorEq, if_false, if_true, hv]
            · exact i1
            · exact i2
            · exact i3
            · exact i4
            · exact i5
            · exact i6
            · refine ⟨n, ?_, rfl⟩
              unfold TOpt at i7 ⊢
              cases hk : val pre .value with
              | none => exact ⟨hc.1, hn⟩
              | some m' =>
                rw [hk] at i7
                obtain ⟨a, _, ha⟩ := i7
                rw [ha] at hc
                cases hc.1
            · exact i8
          · simp [hval, hv]
    case values =>
      by_cases hl : last = true
      · rw [if_neg (by rw [hl]; decide)] at h
        refine ⟨?_, fun _ => hl⟩
        unfold stepValues at h
        simp only at h
        split at h
        · cases h
        · split at h
          · cases h
          · rename_i t ht
            split at h
            · rename_i nm s mm tg hg
              split at h
              · cases h
              · rename_i hty
                split at h
                · cases h
                · rename_i hin
                  split at h
                  · cases h
                  · rename_i i hri
                    split at h
                    · cases h
                    · rename_i c hc
                      cases h
                      constructor <;> simp only [hval, reduceCtorEq, if_false, if_true]
                      · exact i1
                      · exact i2
                      · exact i3
                      · exact i4
                      · exact i5
                      · exact i6
                      · exact ⟨vn, i7, trivial⟩
                      · refine ⟨hc, t, ht, Or.inl ⟨nm, s, mm, tg, i, hg, ?_, by simpa using hin, rfl, hri⟩⟩
                        by_cases h12 : st.mapType = 12#32
                        · exact Or.inl h12
                        · exact Or.inr (Decidable.byContradiction fun h13 => hty ⟨h12, h13⟩)
            · rename_i rt ps hg
              split at h
              · cases h
              · rename_i hty
                split at h
                · cases h
                · rename_i c hc
                  cases h
                  constructor <;> simp only [hval, reduceCtorEq, if_false, if_true]
                  · exact i1
                  · exact i2
                  · exact i3
                  · exact i4
                  · exact i5
                  · exact i6
                  · exact ⟨vn, i7, trivial⟩
                  · exact ⟨hc, t, ht, Or.inr ⟨rt, ps, hg, Decidable.not_not.1 hty, i8.2⟩⟩
            · cases h
      · rw [if_pos (by simpa using hl)] at h
        cases h

theorem members_inv {p : Place} {inner : Bool} {ri : R → Except Err I} : ∀ (ms pre : List (Member R)) (st st' : State R I),
    Inv g p inner ri pre st → (val pre .values ≠ none → ms = []) → members g p inner ri st ms = .ok st' → Inv g p inner ri (pre ++ ms) st'
  | [], pre, st, st', hi, _, h => by
    simp only [members, Except.ok.injEq] at h
    subst h
    simpa using hi
  | m :: ms, pre, st, st', hi, hv, h => by
    unfold members at h
    split at h
    · cases h
    · rename_i st1 h1
      have hn : val pre .values = none := by
        cases hh : val pre .values with
        | none => rfl
        | some x => exact absurd (hv (by rw [hh]; simp)) (by simp)
      obtain ⟨j1, j2⟩ := step_inv g hi hn h1
      have := members_inv ms (pre ++ [m]) st1 st' j1 (fun hh => of_decide_eq_true (j2 hh)) h
      rwa [List.append_assoc] at this

/-! ## from what is read to what is described -/

theorem uint_spec {t : R} {n : BitVec 64} (h : uintFromBTF g t = .ok n) : IsUInt g t n.toNat := by
  unfold uintFromBTF at h
  split at h
  · rename_i a ha
    split at h
    · rename_i i e k hk
      cases h
      have : (k.setWidth 64).toNat = k.toNat := by
        rw [BitVec.toNat_setWidth]
        have := k.isLt
        omega
      rw [this]
      exact .uint ha hk
    · cases h
  · rename_i nm s sg vs hv
    split at h
    · cases h
    · cases h
      exact .ulong hv
  · cases h

theorem uopt_number {ms : List (Member R)} {f : Field} {n : BitVec 64} (h : UOpt g (val ms f) n) : Number g ms f n.toNat := by
  cases hv : val ms f with
  | none =>
    rw [hv] at h
    rw [show n = 0#64 from h]
    exact .absent (val_none hv)
  | some m =>
    rw [hv] at h
    exact .declared (val_some hv) (uint_spec g h)

theorem pointee_spec {t a : R} {n : BitVec 64} (h : pointee g t = .ok (a, n)) : g t = .ptr a ∧ ∃ d, HasSize g d a n.toNat := by
  unfold pointee at h
  split at h
  · rename_i b hb
    split at h
    · cases h
    · rename_i s hs
      cases h
      obtain ⟨⟨d, hd⟩, hlt⟩ := sizeof_exact g a s hs
      refine ⟨hb, d, ?_⟩
      rwa [BitVec.toNat_ofNat, Nat.mod_eq_of_lt (by omega)]
  · cases h

theorem topt_spec {ms : List (Member R)} {f fs : Field} {t : Option R} {n : BitVec 64} (h : TOpt g (val ms f) (val ms fs) t n) :
    TypeAndSize g ms f fs t n.toNat := by
  unfold TOpt at h
  cases hv : val ms f with
  | none =>
    rw [hv] at h
    obtain ⟨rfl, h⟩ := h
    exact .size (val_none hv) (uopt_number g h)
  | some m =>
    rw [hv] at h
    obtain ⟨a, h1, rfl⟩ := h
    obtain ⟨h2, d, h3⟩ := pointee_spec g h1
    exact .type (val_some hv) h2 h3

theorem trunc_eq (n : BitVec 64) : n.setWidth 32 = BitVec.ofNat 32 n.toNat := by
  apply BitVec.eq_of_toNat_eq
  rw [BitVec.toNat_setWidth, BitVec.toNat_ofNat]

/-! ## `values` -/

theorem contentsLoop_spec (p : Place) (start : BitVec 64) : ∀ (n i : Nat) (l : List (Nat × Bytes)), contentsLoop p start n i = .ok l →
    (∀ j nm, (j, nm) ∈ l ↔ i ≤ j ∧ j < i + n ∧ ∃ r, p.relocations (start + BitVec.ofNat 64 j * p.align) = some r ∧ r.name = nm) ∧
    l.Pairwise (fun a b => a.1 < b.1)
  | 0, i, l, h => by
    simp only [contentsLoop, Except.ok.injEq] at h
    subst h
    refine ⟨?_, List.Pairwise.nil⟩
    intro j nm
    constructor
    · intro hh; cases hh
    · rintro ⟨h1, h2, _⟩; omega
  | n + 1, i, l, h => by
    unfold contentsLoop at h
    split at h
    · rename_i hr
      obtain ⟨a, b⟩ := contentsLoop_spec p start n (i + 1) l h
      refine ⟨?_, b⟩
      intro j nm
      rw [a]
      constructor
      · rintro ⟨h1, h2, h3⟩; exact ⟨by omega, by omega, h3⟩
      · rintro ⟨h1, h2, r, h3, h4⟩
        refine ⟨?_, by omega, r, h3, h4⟩
        rcases Nat.lt_or_ge i j with hh | hh
        · omega
        · exfalso
          have : j = i := by omega
          subst this
          rw [hr] at h3
          cases h3
    · rename_i r hr
      split at h
      · cases h
      · split at h
        · cases h
        · rename_i l' hl'
          cases h
          obtain ⟨a, b⟩ := contentsLoop_spec p start n (i + 1) l' hl'
          refine ⟨?_, ?_⟩
          · intro j nm
            rw [List.mem_cons, a]
            constructor
            · rintro (he | ⟨h1, h2, h3⟩)
              · cases he
                exact ⟨by omega, by omega, r, hr, rfl⟩
              · exact ⟨by omega, by omega, h3⟩
            · rintro ⟨h1, h2, r', h3, h4⟩
              rcases Nat.lt_or_ge i j with hh | hh
              · exact Or.inr ⟨by omega, by omega, r', h3, h4⟩
              · have : j = i := by omega
                subst this
                rw [hr] at h3
                cases h3
                exact Or.inl (by rw [h4])
          · refine List.Pairwise.cons ?_ b
            intro x hx
            have := (a x.1 x.2).1 hx
            omega

theorem contents_spec {p : Place} {off : BitVec 32} {l : List (Nat × Bytes)} (h : resolveBTFValuesContents p off = .ok l)
    (ha : p.align = 8#64) (hs : p.symSize.toNat < 2 ^ 32) (hv : p.symValue.toNat + p.symSize.toNat < 2 ^ 64) : ValuesOf p (off.toNat / 8) l := by
  unfold resolveBTFValuesContents at h
  simp only at h
  have hb : (BitVec.ofNat 32 (off.toNat / 8)).toNat = off.toNat / 8 := by
    rw [BitVec.toNat_ofNat]; have := off.isLt; omega
  have hoff := off.isLt
  have hb64 : ((BitVec.ofNat 32 (off.toNat / 8)).setWidth 64).toNat = off.toNat / 8 := by
    rw [BitVec.toNat_setWidth, hb]; omega
  have hsw : (p.symSize.setWidth 32).toNat = p.symSize.toNat := by
    rw [BitVec.toNat_setWidth]; omega
  rw [hb, hsw] at h
  split at h
  · cases h
  · rename_i hle
    rw [ha, if_neg (by decide)] at h
    have hstart : (p.symValue + (BitVec.ofNat 32 (off.toNat / 8)).setWidth 64).toNat = p.symValue.toNat + off.toNat / 8 := by
      rw [BitVec.toNat_add, hb64]; omega
    have hstop : (p.symValue + p.symSize).toNat = p.symValue.toNat + p.symSize.toNat := by
      rw [BitVec.toNat_add]; omega
    have hel : (p.symValue + p.symSize - (p.symValue + (BitVec.ofNat 32 (off.toNat / 8)).setWidth 64)).toNat = p.symSize.toNat - off.toNat / 8 := by
      rw [BitVec.toNat_sub_of_le (by show (p.symValue + _).toNat ≤ (p.symValue + p.symSize).toNat; omega), hstart, hstop]
      omega
    rw [hel, show (8#64).toNat = 8 from rfl] at h
    have hmod : (p.symSize.toNat - off.toNat / 8) / 8 % 2 ^ 32 = (p.symSize.toNat - off.toNat / 8) / 8 := by omega
    rw [hmod] at h
    obtain ⟨a, b⟩ := contentsLoop_spec p _ _ _ _ h
    refine ⟨?_, b⟩
    intro i n
    rw [a]
    have hpos : i < (p.symSize.toNat - off.toNat / 8) / 8 →
        p.symValue + (BitVec.ofNat 32 (off.toNat / 8)).setWidth 64 + BitVec.ofNat 64 i * p.align = BitVec.ofNat 64 (p.symValue.toNat + off.toNat / 8 + 8 * i) := by
      intro hi
      apply BitVec.eq_of_toNat_eq
      rw [ha, BitVec.toNat_add, hstart, BitVec.toNat_mul]
      simp only [BitVec.toNat_ofNat]
      omega
    constructor
    · rintro ⟨_, h2, r, h3, h4⟩
      have h2' : i < (p.symSize.toNat - off.toNat / 8) / 8 := by omega
      rw [hpos h2'] at h3
      exact ⟨h2', r, h3, h4⟩
    · rintro ⟨h2, r, h3, h4⟩
      refine ⟨by omega, by omega, r, ?_, h4⟩
      rw [hpos h2]
      exact h3

/-! ## the claim -/

theorem arrayMacro_spec {t u : R} (h : resolveBTFArrayMacro g t = .ok u) : ∃ i e k, g t = .array i e k ∧ g e = .ptr u := by
  unfold resolveBTFArrayMacro at h
  split at h
  · rename_i i e k hg
    split at h
    · rename_i q hq
      cases h
      exact ⟨i, e, k, hg, hq⟩
    · cases h
  · cases h

theorem finish_describes {p : Place} {inner : Bool} {ri : R → Except Err I} {ms : List (Member R)} {st : State R I} (name : Bytes)
    (hn : (ms.map (·.name)).Nodup) (hi : Inv g p inner ri ms st) (P : R → I → Prop) (hP : ∀ t i, ri t = .ok i → P t i) :
    Describes g p ms P (finish name st) := by
  obtain ⟨⟨n1, a1, b1⟩, i2, i3, ⟨n4, a4, b4⟩, i5, i6, ⟨vn, i7, i7'⟩, i8⟩ := hi
  have trunc := trunc_eq
  refine ⟨⟨_, uopt_number g a1, by simp only [finish]; rw [b1, trunc]⟩, ⟨_, uopt_number g i2, by simp only [finish]; rw [trunc]⟩,
    ⟨_, uopt_number g i3, by simp only [finish]; rw [trunc]⟩, ⟨_, uopt_number g a4, by simp only [finish]; rw [b4, trunc]⟩,
    ⟨_, uopt_number g i5, by simp only [finish]; exact (BitVec.ofNat_toNat _ _ |>.trans (by simp)).symm⟩, ⟨_, topt_spec g i6, by simp only [finish]; rw [trunc]⟩,
    ⟨_, topt_spec g i7, ?_⟩, ⟨?_, ?_⟩, ⟨?_, ?_⟩⟩
  · refine ⟨fun hc => ?_, fun hc => ?_⟩
    · simp only [finish] at hc ⊢
      have : (st.value.isSome && !canHaveValueSize st.mapType) = true := by
        unfold canHaveValueSize
        obtain ⟨h1, h2⟩ := hc
        rw [h1]
        rcases h2 with h | h | h <;> rw [h] <;> rfl
      rw [if_pos this]
      rfl
    · simp only [finish] at hc ⊢
      have : ¬ ((st.value.isSome && !canHaveValueSize st.mapType) = true) := by
        intro hh
        apply hc
        unfold canHaveValueSize at hh
        simp only [Bool.and_eq_true, Bool.not_not, Bool.or_eq_true, decide_eq_true_eq] at hh
        exact ⟨hh.1, by rcases hh.2 with (h | h) | h <;> simp [h]⟩
      rw [if_neg this]
      refine ⟨?_, ?_⟩
      · intro m hm
        rw [val_decl hn hm] at i7'
        rw [i7']
        rfl
      · intro ha
        rw [val_absent ha] at i7'
        rw [i7']
        exact trunc vn
  · intro m hm ha hs hv
    rw [val_decl hn hm] at i8
    exact contents_spec i8.1 ha hs hv
  · intro ha
    rw [val_absent ha] at i8
    exact i8.1
  · intro m hm
    rw [val_decl hn hm] at i8
    obtain ⟨_, t, ht, hh⟩ := i8
    obtain ⟨i, e, k, h1, h2⟩ := arrayMacro_spec g ht
    refine ⟨i, e, k, t, h1, h2, ?_⟩
    rcases hh with ⟨nm, s, mm, tg, i, c1, c2, _, c3, c4⟩ | ⟨rt, ps, c1, c2, c3⟩
    · exact Or.inl ⟨nm, s, mm, tg, i, c1, c2, c3, hP t i c4⟩
    · exact Or.inr ⟨rt, ps, c1, c2, c3⟩
  · intro ha
    rw [val_absent ha] at i8
    exact i8.2

/-- **C71.** A `MapSpec` read from a definition describes the map of the definition, and its inner map the struct in `values`.

Partial: numbers are cut to 32 bits without an error, and `values` is read with the alignment of the section as the size of a pointer; see below. -/
theorem btfMap_describes_partial (p : Place) (name : Bytes) (ms : List (Member R)) (d : MapDef R (MapDef R Empty)) (hn : Distinct ms)
    (h : mapSpecFromBTF g p name ms = .ok d) :
    Describes g p ms (fun t i => Distinct (structMembers g t) → Describes g p (structMembers g t) (fun _ _ => True) i ∧
      Absent (structMembers g t) .pinning ∧ i.inner = none) d := by
  unfold mapSpecFromBTF at h
  split at h
  · cases h
  · rename_i st hm
    cases h
    have hi := members_inv g ms [] State.init st (inv_init g p false _) (fun hh => absurd rfl hh) hm
    refine finish_describes g name hn hi _ ?_
    intro t i hti hd
    unfold innerFromBTF at hti
    split at hti
    · cases hti
    · rename_i sti hmi
      cases hti
      have hii := members_inv g (structMembers g t) [] State.init sti (inv_init g p true _) (fun hh => absurd rfl hh) hmi
      refine ⟨finish_describes g _ hd hii _ (fun _ _ _ => trivial), ?_, ?_⟩
      · have key : ∀ (l : List (Member R)) (s s' : State R Empty), members g p true (fun _ => .error .nested) s l = .ok s' → Absent l .pinning := by
          intro l
          induction l with
          | nil => intro s s' _ m hm; cases hm.1
          | cons x xs ih =>
            intro s s' hx m hm
            unfold members at hx
            split at hx
            · cases hx
            · rename_i s1 h1
              rcases List.mem_cons.1 hm.1 with he | he
              · subst he
                unfold step at h1
                rw [(fieldOf_iff m.name .pinning).2 hm.2] at h1
                simp only [if_true] at h1
                cases h1
              · exact ih s1 s' hx m ⟨he, hm.2⟩
        exact key _ _ _ hmi
      · cases hin : (finish (name ++ ascii ['_', 'i', 'n', 'n', 'e', 'r']) sti).inner with
        | none => rfl
        | some x => cases x

/-! ## well-formed definitions are accepted -/

/-- What the code needs of a definition. -/
structure Usable (p : Place) (inner : Bool) (ok : R → Prop) (ms : List (Member R)) : Prop where
  known : ∀ m ∈ ms, ∃ f, m.name = ascii (fieldName f)
  numbers : ∀ m, ∀ f ∈ [Field.type, .mapFlags, .maxEntries, .keySize, .valueSize, .pinning, .mapExtra], Decl ms f m → ∃ n, uintFromBTF g m.type = .ok n
  types : ∀ m, ∀ f ∈ [Field.key, .value], Decl ms f m → ∃ a n, pointee g m.type = .ok (a, n)
  keys : Absent ms .key ∨ Absent ms .keySize
  vals : Absent ms .value ∨ Absent ms .valueSize
  pinned : inner = true → Absent ms .pinning
  last : ∀ pre m post, ms = pre ++ m :: post → m.name = ascii (fieldName .values) → post = []
  values : ∀ m, Decl ms .values m → (∃ c, resolveBTFValuesContents p m.offset = .ok c) ∧
    (∀ v, Decl ms .value v → ∃ a n, pointee g v.type = .ok (a, n) ∧ (n = 0#64 ∨ n = 4#64)) ∧
    (∀ v, Decl ms .valueSize v → ∃ n, uintFromBTF g v.type = .ok n ∧ (n = 0#64 ∨ n = 4#64)) ∧
    ∃ t, resolveBTFArrayMacro g m.type = .ok t ∧ ∃ tm n, Decl ms .type tm ∧ uintFromBTF g tm.type = .ok n ∧
      ((∃ nm s mm tg, g t = .struct nm s mm tg ∧ (n = 12#64 ∨ n = 13#64) ∧ inner = false ∧ ok t) ∨ (∃ rt ps, g t = .funcProto rt ps ∧ n = 3#64))

theorem members_accepts {p : Place} {inner : Bool} {ri : R → Except Err I} {ok : R → Prop} (hok : ∀ t, ok t → ∃ i, ri t = .ok i)
    {all : List (Member R)} (hn : Distinct all) (hw : Usable g p inner ok all) : ∀ (ms pre : List (Member R)) (st : State R I), all = pre ++ ms →
    Inv g p inner ri pre st → ∃ st', members g p inner ri st ms = .ok st'
  | [], pre, st, _, _ => ⟨st, rfl⟩
  | m :: ms, pre, st, he, hi => by
    have hmem : m ∈ all := by rw [he]; simp
    -- the prefix has no member with the name of this one
    have hfresh : ∀ f, m.name = ascii (fieldName f) → val pre f = none := by
      intro f hf
      cases hv : val pre f with
      | none => rfl
      | some x =>
        exfalso
        have hx := val_some hv
        unfold Distinct at hn
        rw [he, List.map_append, List.map_cons] at hn
        have := (List.nodup_append.1 hn).2.2 x.name (List.mem_map.2 ⟨x, hx.1, rfl⟩) m.name List.mem_cons_self
        exact this (by rw [hx.2, hf])
    have habs : ∀ f, Absent all f → val pre f = none := by
      intro f hf
      cases hv : val pre f with
      | none => rfl
      | some x =>
        have hx := val_some hv
        exact absurd ⟨by rw [he]; exact List.mem_append_left _ hx.1, hx.2⟩ (hf x)
    have hpre : ∀ f x, val pre f = some x → Decl all f x := fun f x hv =>
      ⟨by rw [he]; exact List.mem_append_left _ (val_some hv).1, (val_some hv).2⟩
    have hvals : val pre .values = none := by
      cases hv : val pre .values with
      | none => rfl
      | some x =>
        exfalso
        have hx := val_some hv
        obtain ⟨a, b, hab⟩ := List.append_of_mem hx.1
        have := hw.last a x (b ++ m :: ms) (by rw [he, hab]; simp) hx.2
        simp at this
    obtain ⟨f, hf⟩ := hw.known m hmem
    have hfo := (fieldOf_iff m.name f).2 hf
    have hdecl : Decl all f m := ⟨hmem, hf⟩
    suffices hs : ∃ st1, step g p inner ri (decide (ms = [])) st m = .ok st1 by
      obtain ⟨st1, h1⟩ := hs
      obtain ⟨j1, _⟩ := step_inv g hi hvals h1
      obtain ⟨st', h2⟩ := members_accepts hok hn hw ms (pre ++ [m]) st1 (by rw [he]; simp) j1
      refine ⟨st', ?_⟩
      unfold members
      rw [h1]
      exact h2
    unfold step
    rw [hfo]
    obtain ⟨⟨nt, a1, b1⟩, i2, i3, _, i5, i6, ⟨vn, i7, i7'⟩, i8⟩ := hi
    rw [hvals] at i7' i8
    simp only at i7' i8
    cases f <;> simp only
    case type =>
      obtain ⟨n, hn⟩ := hw.numbers m .type (by simp) hdecl
      rw [hn]; exact ⟨_, rfl⟩
    case mapFlags =>
      obtain ⟨n, hn⟩ := hw.numbers m .mapFlags (by simp) hdecl
      rw [hn]; exact ⟨_, rfl⟩
    case maxEntries =>
      obtain ⟨n, hn⟩ := hw.numbers m .maxEntries (by simp) hdecl
      rw [hn]; exact ⟨_, rfl⟩
    case mapExtra =>
      obtain ⟨n, hn⟩ := hw.numbers m .mapExtra (by simp) hdecl
      rw [hn]; exact ⟨_, rfl⟩
    case pinning =>
      obtain ⟨n, hn⟩ := hw.numbers m .pinning (by simp) hdecl
      have : ¬ inner = true := fun hh => hw.pinned hh m hdecl
      rw [if_neg this, hn]; exact ⟨_, rfl⟩
    case key =>
      have h1 : val pre .keySize = none := habs _ (hw.keys.resolve_left (fun hh => hh m hdecl))
      have h2 := hfresh _ hf
      rw [h1, h2] at i6
      have hz : st.keySize = 0#64 := i6.2
      obtain ⟨a, n, hp⟩ := hw.types m .key (by simp) hdecl
      rw [hz, if_neg (by simp), hp]
      exact ⟨_, rfl⟩
    case keySize =>
      have h1 : val pre .key = none := habs _ (hw.keys.resolve_right (fun hh => hh m hdecl))
      have h2 := hfresh _ hf
      rw [h1, h2] at i6
      have hz : st.keySize = 0#64 := i6.2
      obtain ⟨n, hp⟩ := hw.numbers m .keySize (by simp) hdecl
      rw [hz, i6.1, if_neg (by simp), hp]
      exact ⟨_, rfl⟩
    case value =>
      have h1 : val pre .valueSize = none := habs _ (hw.vals.resolve_left (fun hh => hh m hdecl))
      have h2 := hfresh _ hf
      rw [h1, h2] at i7
      have hz : vn = 0#64 := i7.2
      obtain ⟨a, n, hp⟩ := hw.types m .value (by simp) hdecl
      rw [i7', hz, if_neg (by simp), hp]
      exact ⟨_, rfl⟩
    case valueSize =>
      have h1 : val pre .value = none := habs _ (hw.vals.resolve_right (fun hh => hh m hdecl))
      have h2 := hfresh _ hf
      rw [h1, h2] at i7
      have hz : vn = 0#64 := i7.2
      obtain ⟨n, hp⟩ := hw.numbers m .valueSize (by simp) hdecl
      rw [i7', hz, i7.1, if_neg (by simp), hp]
      exact ⟨_, rfl⟩
    case values =>
      have hlast : ms = [] := hw.last pre m ms he hf
      obtain ⟨⟨c, hc⟩, w1, w2, t, ht, tm, n, htm, htn, hcase⟩ := hw.values m hdecl
      rw [if_neg (by rw [hlast]; simp)]
      unfold stepValues
      simp only
      have hsz : ¬ (st.valueSize ≠ 0#64 ∧ st.valueSize ≠ 4#64) := by
        rintro ⟨z1, z2⟩
        rw [i7'] at z1 z2
        unfold TOpt at i7
        cases hv : val pre .value with
        | none =>
          rw [hv] at i7
          obtain ⟨_, i7⟩ := i7
          unfold UOpt at i7
          cases hvs : val pre .valueSize with
          | none => rw [hvs] at i7; exact z1 i7
          | some x =>
            rw [hvs] at i7
            obtain ⟨n', e1, e2⟩ := w2 x (hpre _ _ hvs)
            simp only at i7
            rw [e1] at i7
            cases i7
            rcases e2 with h | h
            · exact z1 h
            · exact z2 h
        | some x =>
          rw [hv] at i7
          obtain ⟨a, e0, _⟩ := i7
          obtain ⟨a', n', e1, e2⟩ := w1 x (hpre _ _ hv)
          rw [e1] at e0
          cases e0
          rcases e2 with h | h
          · exact z1 h
          · exact z2 h
      rw [if_neg hsz, ht]
      simp only
      have hty : st.mapType = n.setWidth 32 := by
        have hv : val pre .type = some tm := by
          have hin : tm ∈ pre := by
            have := htm.1
            rw [he, hlast] at this
            rcases List.mem_append.1 this with h | h
            · exact h
            · simp only [List.mem_singleton] at h
              have h2 := htm.2
              rw [h, hf] at h2
              exact absurd h2 (by decide)
          have hnp : (pre.map (·.name)).Nodup := by
            unfold Distinct at hn
            rw [he, List.map_append] at hn
            exact (List.nodup_append.1 hn).1
          exact val_decl hnp ⟨hin, htm.2⟩
        rw [hv] at a1
        have : n = nt := by
          have a1' : uintFromBTF g tm.type = .ok nt := a1
          rw [htn] at a1'
          cases a1'
          rfl
        rw [b1, this]
      rcases hcase with ⟨nm, s, mm, tg, hg, hn', hin, hokt⟩ | ⟨rt, ps, hg, hn'⟩
      · obtain ⟨i, hi⟩ := hok t hokt
        rw [hg]
        simp only
        have : ¬ (st.mapType ≠ 12#32 ∧ st.mapType ≠ 13#32) := by
          rw [hty]
          rcases hn' with h | h <;> rw [h] <;> decide
        rw [if_neg this, if_neg (by rw [hin]; decide), hi]
        simp only
        rw [hc]
        exact ⟨_, rfl⟩
      · rw [hg]
        simp only
        have : ¬ (st.mapType ≠ 3#32) := by rw [hty, hn']; decide
        rw [if_neg this, hc]
        exact ⟨_, rfl⟩

theorem isUInt_read {t : R} {n : Nat} (h : IsUInt g t n) : ∃ b : BitVec 64, uintFromBTF g t = .ok b ∧ b.toNat = n := by
  cases h with
  | uint h1 h2 =>
    rename_i a i e k
    refine ⟨k.setWidth 64, ?_, ?_⟩
    · unfold uintFromBTF
      rw [h1]
      simp only
      rw [h2]
    · rw [BitVec.toNat_setWidth]
      have := k.isLt
      omega
  | ulong h1 =>
    rename_i v vs
    refine ⟨v.value, ?_, rfl⟩
    unfold uintFromBTF
    rw [h1]

theorem isType_read {t : R} {n : Nat} (h : IsType g t n) : ∃ a, pointee g t = .ok (a, BitVec.ofNat 64 n) := by
  obtain ⟨a, d, h1, h2, h3, h4, h5⟩ := h
  refine ⟨a, ?_⟩
  unfold pointee
  rw [h1]
  simp only
  rw [sizeof_complete g a d n h2 h3 h4 h5]

theorem contentsLoop_ok (p : Place) (start : BitVec 64) (h : ∀ a r, p.relocations a = some r → r.known = true) : ∀ (n i : Nat), ∃ c, contentsLoop p start n i = .ok c
  | 0, _ => ⟨_, rfl⟩
  | n + 1, i => by
    obtain ⟨c, hc⟩ := contentsLoop_ok p start h n (i + 1)
    unfold contentsLoop
    cases hr : p.relocations (start + BitVec.ofNat 64 i * p.align) with
    | none => exact ⟨c, hc⟩
    | some r =>
      simp only [h _ r hr, Bool.not_true, Bool.false_eq_true, if_false, hc]
      exact ⟨_, rfl⟩

theorem usable {p : Place} {inner : Bool} {ok ok' : R → Prop} (hok : ∀ t, ok t → ok' t) {ms : List (Member R)} (h : WellFormed g p inner ok ms) : Usable g p inner ok' ms where
  known := h.known
  numbers m f hf hd := by
    obtain ⟨n, hn⟩ := h.numbers m f hf hd
    obtain ⟨b, hb, _⟩ := isUInt_read g hn
    exact ⟨b, hb⟩
  types m f hf hd := by
    obtain ⟨n, hn⟩ := h.types m f hf hd
    obtain ⟨a, ha⟩ := isType_read g hn
    exact ⟨a, _, ha⟩
  keys := h.keys
  vals := h.vals
  pinned := h.pinned
  last := h.last
  values m hd := by
    obtain ⟨h1, h2, ia, ie, ik, t, tm, n, h3, h4, h5, h6, h7⟩ := h.values m hd
    obtain ⟨r1, r2, r3, r4, r5⟩ := h.relocated m hd
    refine ⟨?_, ?_, ?_, ?_⟩
    · unfold resolveBTFValuesContents
      simp only
      have hoff := m.offset.isLt
      have e1 : ¬ ((p.symSize.setWidth 32).toNat < (BitVec.ofNat 32 (m.offset.toNat / 8)).toNat) := by
        rw [BitVec.toNat_setWidth, BitVec.toNat_ofNat]
        omega
      rw [if_neg e1, if_neg (by rw [r1]; decide)]
      exact contentsLoop_ok p _ r5 _ _
    · intro v hv
      obtain ⟨a, ha⟩ := isType_read g (h1 v hv)
      exact ⟨a, _, ha, Or.inr rfl⟩
    · intro v hv
      obtain ⟨b, hb, hn⟩ := isUInt_read g (h2 v hv)
      exact ⟨b, hb, Or.inr (BitVec.eq_of_toNat_eq hn)⟩
    · obtain ⟨b, hb, hn⟩ := isUInt_read g h6
      refine ⟨t, ?_, tm, b, h5, hb, ?_⟩
      · unfold resolveBTFArrayMacro
        rw [h3]
        simp only
        rw [h4]
      · rcases h7 with ⟨nm, s, mm, tg, c1, c2, c3, c4⟩ | ⟨rt, ps, c1, c2⟩
        · refine Or.inl ⟨nm, s, mm, tg, c1, ?_, c3, hok t c4⟩
          rcases c2 with c | c
          · exact Or.inl (BitVec.eq_of_toNat_eq (hn.trans c))
          · exact Or.inr (BitVec.eq_of_toNat_eq (hn.trans c))
        · exact Or.inr ⟨rt, ps, c1, BitVec.eq_of_toNat_eq (hn.trans c2)⟩

/-- **C71.** Every well-formed definition, with a well-formed inner map, is accepted. -/
theorem btfMap_accepts (p : Place) (name : Bytes) (ms : List (Member R)) (hn : Distinct ms)
    (hw : WellFormed g p false (fun t => Distinct (structMembers g t) ∧ WellFormed g p true (fun _ => False) (structMembers g t)) ms) :
    ∃ d, mapSpecFromBTF g p name ms = .ok d := by
  have hin : ∀ t, Distinct (structMembers g t) ∧ WellFormed g p true (fun _ => False) (structMembers g t) →
      ∃ i, innerFromBTF g p (name ++ ascii ['_', 'i', 'n', 'n', 'e', 'r']) (structMembers g t) = .ok i := by
    rintro t ⟨h1, h2⟩
    obtain ⟨st, hst⟩ := members_accepts (I := Empty) (ri := fun _ => .error .nested) g (ok := fun _ => False) (fun _ h => h.elim) h1 (usable g (fun _ h => h) h2) (structMembers g t) [] State.init rfl
      (inv_init g p true _)
    unfold innerFromBTF
    rw [hst]
    exact ⟨_, rfl⟩
  obtain ⟨st, hst⟩ := members_accepts g hin hn (usable g (fun _ h => h) hw) ms [] State.init rfl (inv_init g p false _)
  unfold mapSpecFromBTF
  rw [hst]
  exact ⟨_, rfl⟩

end

/-! ## examples -/

/-- A member without bit field and tags. -/
def exMember (f : Field) (t : Nat) (off : Nat) : Member Nat := ⟨ascii (fieldName f), t, BitVec.ofNat 32 off, 0#32, []⟩

/-- `struct { __uint(type, ARRAY_OF_MAPS); __uint(max_entries, 5); __type(key, int); __array(values, struct inner); }`, with
`struct inner { __uint(type, 12); __uint(max_entries, 5); __type(key, int); __type(value, int); }`, and an enum of `2^32 + 1`, and a number 0. -/
def exGraph : Graph Nat
  | 0 => .int [] 4#32 0#8
  | 1 => .array 0 0 12#32
  | 2 => .ptr 1
  | 3 => .array 0 0 5#32
  | 4 => .ptr 3
  | 5 => .ptr 0
  | 6 => .struct [] 32#32 [exMember .type 2 0, exMember .maxEntries 4 64, exMember .key 5 128, exMember .value 5 192] []
  | 7 => .ptr 6
  | 8 => .array 0 7 0#32
  | 9 => .enum [] 8#32 false [⟨[], 0x100000001#64⟩]
  | 10 => .array 0 0 0#32
  | 11 => .ptr 10
  | _ => .void

/-- The definition, with two of three values given. -/
def exMembers : List (Member Nat) := [exMember .type 2 0, exMember .maxEntries 4 64, exMember .key 5 128, exMember .values 8 192]

/-- The symbol is at 16 and of 24 + 3·8 bytes; elements 0 and 2 are `a` and `b`. -/
def exPlace (align : BitVec 64) : Place :=
  ⟨align, fun o => if o = 40#64 then some ⟨ascii ['a'], true⟩ else if o = 56#64 then some ⟨ascii ['b'], true⟩ else none, 16#64, 48#64⟩

theorem exMember_inj {f f' : Field} {t off : Nat} {m : Member Nat} (h : m = exMember f t off) (h' : m.name = ascii (fieldName f')) : f = f' := by
  subst h
  have h1 : fieldOf (ascii (fieldName f)) = some f := (fieldOf_iff _ _).2 rfl
  have h2 := (fieldOf_iff _ _).2 h'
  exact Option.some.inj (h1.symm.trans h2)

/-- The inner map is well-formed. -/
theorem exInner : WellFormed exGraph (exPlace 8#64) true (fun _ => False) (structMembers exGraph 6) := by
  have hms : ∀ m, m ∈ structMembers exGraph 6 ↔ m = exMember .type 2 0 ∨ m = exMember .maxEntries 4 64 ∨ m = exMember .key 5 128 ∨ m = exMember .value 5 192 := by
    intro m
    simp [structMembers, exGraph]
  have habs : ∀ f, f ≠ .type → f ≠ .maxEntries → f ≠ .key → f ≠ .value → Absent (structMembers exGraph 6) f := by
    rintro f h1 h2 h3 h4 m ⟨hm, hn⟩
    rcases (hms m).1 hm with e | e | e | e
    · exact h1 (exMember_inj e hn).symm
    · exact h2 (exMember_inj e hn).symm
    · exact h3 (exMember_inj e hn).symm
    · exact h4 (exMember_inj e hn).symm
  refine ⟨?_, ?_, ?_, ?_, ?_, ?_, ?_, ?_, ?_⟩
  · intro m hm
    rcases (hms m).1 hm with e | e | e | e <;> subst e <;> exact ⟨_, rfl⟩
  · rintro m f hf ⟨hm, hn⟩
    rcases (hms m).1 hm with e | e | e | e
    · subst e; exact ⟨_, .uint (a := 1) rfl rfl⟩
    · subst e; exact ⟨_, .uint (a := 3) rfl rfl⟩
    · have := exMember_inj e hn; subst this; simp at hf
    · have := exMember_inj e hn; subst this; simp at hf
  · rintro m f hf ⟨hm, hn⟩
    rcases (hms m).1 hm with e | e | e | e
    · have := exMember_inj e hn; subst this; simp at hf
    · have := exMember_inj e hn; subst this; simp at hf
    · subst e; exact ⟨4, 0, 0, rfl, .int (g := exGraph) (t := 0) (n := []) (s := 4#32) (e := 0#8) rfl, by decide, by decide, by decide⟩
    · subst e; exact ⟨4, 0, 0, rfl, .int (g := exGraph) (t := 0) (n := []) (s := 4#32) (e := 0#8) rfl, by decide, by decide, by decide⟩
  · exact Or.inr (habs _ (by decide) (by decide) (by decide) (by decide))
  · exact Or.inr (habs _ (by decide) (by decide) (by decide) (by decide))
  · intro _; exact habs _ (by decide) (by decide) (by decide) (by decide)
  · intro pre m post he hn
    exact absurd ⟨by rw [he]; simp, hn⟩ (habs .values (by decide) (by decide) (by decide) (by decide) m)
  · intro m hm; exact absurd hm (habs .values (by decide) (by decide) (by decide) (by decide) m)
  · intro m hm; exact absurd hm (habs .values (by decide) (by decide) (by decide) (by decide) m)

/-- The hypotheses of `btfMap_accepts` are met by a map of maps with an inner map. -/
theorem exWellFormed : Distinct exMembers ∧ WellFormed exGraph (exPlace 8#64) false
    (fun t => Distinct (structMembers exGraph t) ∧ WellFormed exGraph (exPlace 8#64) true (fun _ => False) (structMembers exGraph t)) exMembers := by
  have hms : ∀ m, m ∈ exMembers ↔ m = exMember .type 2 0 ∨ m = exMember .maxEntries 4 64 ∨ m = exMember .key 5 128 ∨ m = exMember .values 8 192 := by
    intro m
    simp [exMembers]
  have habs : ∀ f, f ≠ .type → f ≠ .maxEntries → f ≠ .key → f ≠ .values → Absent exMembers f := by
    rintro f h1 h2 h3 h4 m ⟨hm, hn⟩
    rcases (hms m).1 hm with e | e | e | e
    · exact h1 (exMember_inj e hn).symm
    · exact h2 (exMember_inj e hn).symm
    · exact h3 (exMember_inj e hn).symm
    · exact h4 (exMember_inj e hn).symm
  have hvals : ∀ m, Decl exMembers .values m → m = exMember .values 8 192 := by
    rintro m ⟨hm, hn⟩
    rcases (hms m).1 hm with e | e | e | e
    · exact absurd (exMember_inj e hn) (by decide)
    · exact absurd (exMember_inj e hn) (by decide)
    · exact absurd (exMember_inj e hn) (by decide)
    · exact e
  refine ⟨by unfold Distinct; decide, ?_, ?_, ?_, ?_, ?_, ?_, ?_, ?_, ?_⟩
  · intro m hm
    rcases (hms m).1 hm with e | e | e | e <;> subst e <;> exact ⟨_, rfl⟩
  · rintro m f hf ⟨hm, hn⟩
    rcases (hms m).1 hm with e | e | e | e
    · subst e; exact ⟨_, .uint (a := 1) rfl rfl⟩
    · subst e; exact ⟨_, .uint (a := 3) rfl rfl⟩
    · have := exMember_inj e hn; subst this; simp at hf
    · have := exMember_inj e hn; subst this; simp at hf
  · rintro m f hf ⟨hm, hn⟩
    rcases (hms m).1 hm with e | e | e | e
    · have := exMember_inj e hn; subst this; simp at hf
    · have := exMember_inj e hn; subst this; simp at hf
    · subst e; exact ⟨4, 0, 0, rfl, .int (g := exGraph) (t := 0) (n := []) (s := 4#32) (e := 0#8) rfl, by decide, by decide, by decide⟩
    · have := exMember_inj e hn; subst this; simp at hf
  · exact Or.inr (habs _ (by decide) (by decide) (by decide) (by decide))
  · exact Or.inr (habs _ (by decide) (by decide) (by decide) (by decide))
  · intro h; cases h
  · intro pre m post he hn
    have hm := hvals m ⟨by rw [he]; simp, hn⟩
    subst hm
    rcases pre with _ | ⟨a, _ | ⟨b, _ | ⟨c, _ | ⟨d, pre⟩⟩⟩⟩
    · injection he with h1; exact absurd h1 (by decide)
    · injection he with _ h1; injection h1 with h1; exact absurd h1 (by decide)
    · injection he with _ h1; injection h1 with _ h1; injection h1 with h1; exact absurd h1 (by decide)
    · injection he with _ h1; injection h1 with _ h1; injection h1 with _ h1; injection h1 with _ h1; exact h1.symm
    · have := congrArg List.length he
      simp [exMembers] at this
  · intro m hm
    have := hvals m hm; subst this
    refine ⟨fun v hv => absurd hv (habs .value (by decide) (by decide) (by decide) (by decide) v),
      fun v hv => absurd hv (habs .valueSize (by decide) (by decide) (by decide) (by decide) v), 0, 7, 0#32, 6, exMember .type 2 0, 12, rfl, rfl,
      ⟨by simp [exMembers], rfl⟩, .uint (a := 1) (k := 12#32) rfl rfl, Or.inl ⟨_, _, _, _, rfl, Or.inl rfl, rfl, by unfold Distinct; decide, exInner⟩⟩
  · intro m hm
    have := hvals m hm; subst this
    refine ⟨rfl, by decide, by decide, by decide, ?_⟩
    intro a r hr
    unfold exPlace at hr
    simp only at hr
    split at hr
    · cases hr; rfl
    · split at hr
      · cases hr; rfl
      · cases hr

/-- So it is accepted, and by `btfMap_describes_partial` the result is the map described. -/
example : ∃ d, mapSpecFromBTF exGraph (exPlace 8#64) (ascii ['m']) exMembers = .ok d := btfMap_accepts exGraph _ _ _ exWellFormed.1 exWellFormed.2

/-- What is returned: type, number of entries, sizes, contents, and the type of the inner map. -/
def exView (r : Except Err (MapDef Nat (MapDef Nat Empty))) : Option (List (BitVec 32) × List (Nat × Bytes) × Option (BitVec 32)) :=
  match r with
  | .ok d => some ([d.type, d.maxEntries, d.keySize, d.valueSize], d.contents, d.inner.map (·.maxEntries))
  | .error _ => none

example : exView (mapSpecFromBTF exGraph (exPlace 8#64) (ascii ['m']) exMembers) =
    some ([12#32, 5#32, 4#32, 4#32], [(0, ascii ['a']), (2, ascii ['b'])], some 5#32) := by decide

/-! ## what is false of the code -/

/-- **Counterexample.** A section with an alignment of 16, which it gets if any map in it has it: pointers are taken to be of 16 bytes, so
only one element is looked at and `b` is lost. -/
theorem values_misaligned : exView (mapSpecFromBTF exGraph (exPlace 16#64) (ascii ['m']) exMembers) =
    some ([12#32, 5#32, 4#32, 4#32], [(0, ascii ['a'])], some 5#32) := by decide

/-- **Counterexample.** With five elements, of which numbers 0 and 2 are given: `b` becomes element 1. -/
theorem values_wrong_index : exView (mapSpecFromBTF exGraph { exPlace 16#64 with symSize := 64#64 } (ascii ['m']) exMembers) =
    some ([12#32, 5#32, 4#32, 4#32], [(0, ascii ['a']), (1, ascii ['b'])], some 5#32) := by decide

/-- **Counterexample.** `__ulong(max_entries, 2^32 + 1)` gives a map with one entry and no error. -/
theorem maxEntries_truncated : exView (mapSpecFromBTF exGraph (exPlace 8#64) (ascii ['m'])
    [exMember .type 4 0, exMember .maxEntries 9 64, exMember .key 5 128, exMember .value 5 192]) = some ([5#32, 1#32, 4#32, 4#32], [], none) := by decide

/-- **Counterexample.** Both `key_size` and `key` are accepted if the size is 0 and comes first. -/
theorem both_sizes_accepted : exView (mapSpecFromBTF exGraph (exPlace 8#64) (ascii ['m'])
    [exMember .type 4 0, exMember .keySize 11 64, exMember .key 5 128]) = some ([5#32, 0#32, 4#32, 0#32], [], none) := by decide

theorem sanitizeName_sanitized (name : Bytes) : Sanitized name (sanitizeName name) := by
  induction name with
  | nil => exact .nil
  | cons c n ih =>
    unfold sanitizeName at ih ⊢
    by_cases h : AllowedByte c
    · rw [List.filter_cons_of_pos (by unfold AllowedByte at h; simpa [or_assoc] using h)]
      exact .keep c _ _ h ih
    · rw [List.filter_cons_of_neg (by unfold AllowedByte at h; simpa [or_assoc] using h)]
      exact .drop c _ _ h ih

/-- **C71, names.** A map is called as in its definition, without the characters the kernel doesn't allow, and an inner map like the outer one with `_inner` at the end. -/
theorem btfMap_name {R : Type} (g : Graph R) (p : Place) (name : Bytes) (ms : List (Member R)) (d : MapDef R (MapDef R Empty))
    (h : mapSpecFromBTF g p name ms = .ok d) : Sanitized name d.name := by
  unfold mapSpecFromBTF at h
  split at h
  · cases h
  · injection h with h
    subst h
    exact sanitizeName_sanitized name

theorem innerMap_name {R : Type} (g : Graph R) (p : Place) (name : Bytes) (ms : List (Member R)) (d : MapDef R Empty)
    (h : innerFromBTF g p name ms = .ok d) : Sanitized name d.name := by
  unfold innerFromBTF at h
  split at h
  · cases h
  · injection h with h
    subst h
    exact sanitizeName_sanitized name

end Ebpf.BtfMap
