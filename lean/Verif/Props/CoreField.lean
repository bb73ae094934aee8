import Verif.Model.CoreField
import Verif.Spec.CoreField
import Verif.Props.CoreMatch
import Verif.Props.CoreBits
import Verif.Props.BtfDatasec
/-!
# C34, C35: field relocations
-/
namespace Ebpf.Btf
open Ebpf.BtfSpec
open Ebpf.Core (Kind Fixup)
variable {R : Type}

theorem isComposite_iff (n : Node R) : isComposite n = true ↔ n.members? ≠ none := by
  unfold isComposite; cases n.members? <;> simp

theorem asComposite (g : Graph R) (t u : R) : asType g isComposite t = some u ↔ Underlies g t u ∧ (g u).members? ≠ none := by
  rw [asType_underlies g isComposite (by intro n; cases n <;> simp [isComposite, Node.members?, Node.peel?, Node.qualify?]), isComposite_iff]

/-! ## Looking for a member -/

theorem scan_found (g : Graph R) (name : Bytes) (off : BitVec 32) : ∀ (ms : List (Member R)) (m : Member R) (last : Bool),
    scanMembers g name off ms = .found m last →
    ∃ m0 ∈ ms, m0.name = name ∧ m = { m0 with offset := m0.offset + off } ∧ (last = true → ms.getLast? = some m0)
  | [], m, last, h => by simp [scanMembers] at h
  | x :: ms, m, last, h => by
    unfold scanMembers at h
    split at h
    · next hn =>
      injection h with h1 h2
      refine ⟨x, List.mem_cons_self .., hn, h1.symm, ?_⟩
      intro hl; rw [← h2, List.isEmpty_iff] at hl; subst hl; rfl
    · have rest : ∀ m last, scanMembers g name off ms = .found m last →
          ∃ m0 ∈ x :: ms, m0.name = name ∧ m = { m0 with offset := m0.offset + off } ∧ (last = true → (x :: ms).getLast? = some m0) := by
        intro m last h
        obtain ⟨m0, h1, h2, h3, h4⟩ := scan_found g name off ms m last h
        refine ⟨m0, List.mem_cons_of_mem _ h1, h2, h3, fun hl => ?_⟩
        rw [List.getLast?_cons, h4 hl]; rfl
      split at h
      · exact rest m last h
      · split at h
        · cases h
        · split at h
          · cases h
          · exact rest m last h

theorem scan_more (g : Graph R) (name : Bytes) (off : BitVec 32) : ∀ (ms : List (Member R)) (cs : List (R × BitVec 32)),
    scanMembers g name off ms = .more cs →
    (∀ m ∈ ms, m.name ≠ name) ∧
    (∀ a ∈ ms, a.name = [] → ∃ c, Underlies g a.type c ∧ (g c).members? ≠ none ∧ (c, off + a.offset) ∈ cs) ∧
    (∀ p ∈ cs, ∃ a ∈ ms, a.name = [] ∧ Underlies g a.type p.1 ∧ (g p.1).members? ≠ none ∧ p.2 = off + a.offset)
  | [], cs, h => by
    simp only [scanMembers, Scan.more.injEq] at h
    subst h; simp
  | x :: ms, cs, h => by
    unfold scanMembers at h
    split at h
    · cases h
    · next hn =>
      split at h
      · next hx =>
        obtain ⟨h1, h2, h3⟩ := scan_more g name off ms cs h
        refine ⟨?_, ?_, ?_⟩
        · intro m hm; rcases List.mem_cons.1 hm with rfl | hm; exact hn; exact h1 m hm
        · intro a ha; rcases List.mem_cons.1 ha with rfl | ha; exact fun h => absurd h hx; exact h2 a ha
        · intro p hp; obtain ⟨a, h4, h5⟩ := h3 p hp; exact ⟨a, List.mem_cons_of_mem _ h4, h5⟩
      · next hx =>
        have hx : x.name = [] := by simpa using hx
        split at h
        · cases h
        · next c hc =>
          obtain ⟨hc1, hc2⟩ := (asComposite g _ _).1 hc
          split at h
          · next cs' hs =>
            injection h with h; subst h
            obtain ⟨h1, h2, h3⟩ := scan_more g name off ms cs' hs
            refine ⟨?_, ?_, ?_⟩
            · intro m hm; rcases List.mem_cons.1 hm with rfl | hm; exact hn; exact h1 m hm
            · intro a ha hae
              rcases List.mem_cons.1 ha with rfl | ha
              · exact ⟨c, hc1, hc2, List.mem_cons_self ..⟩
              · obtain ⟨c', h4, h5, h6⟩ := h2 a ha hae; exact ⟨c', h4, h5, List.mem_cons_of_mem _ h6⟩
            · intro p hp
              rcases List.mem_cons.1 hp with rfl | hp
              · exact ⟨x, List.mem_cons_self .., hx, hc1, hc2, rfl⟩
              · obtain ⟨a, h4, h5⟩ := h3 p hp; exact ⟨a, List.mem_cons_of_mem _ h4, h5⟩
          · next r hr => exact absurd h (by intro h; exact hr cs h)

/-- The composite `p.1` is (an anonymous part of) `root`, `p.2` bits from its start. -/
def Carries (g : Graph R) (name : Bytes) (root : R) (p : R × BitVec 32) : Prop :=
  ∃ o, p.2 = BitVec.ofNat 32 o ∧ ∀ o' m, Inside g name p.1 o' m → Inside g name root (o + o') m

section
variable [DecidableEq R]

omit [DecidableEq R] in
theorem dropWhile_mem {α : Type} (p : α → Bool) (l : List α) (x : α) (h : x ∈ l.dropWhile p) : x ∈ l := by
  induction l with
  | nil => simp at h
  | cons a l ih =>
    rw [List.dropWhile_cons] at h
    split at h
    · exact List.mem_cons_of_mem _ (ih h)
    · exact h

omit [DecidableEq R] in
theorem dropWhile_split {α : Type} (p : α → Bool) (l : List α) (x : α) (h : x ∈ l) : p x = true ∨ x ∈ l.dropWhile p := by
  induction l with
  | nil => simp at h
  | cons a l ih =>
    rw [List.dropWhile_cons]
    split
    · next ha => rcases List.mem_cons.1 h with rfl | h; exact Or.inl ha; exact ih h
    · exact Or.inr h

theorem findLoop_sound (g : Graph R) (name : Bytes) (root : R) : ∀ (k : Nat) (vis q : List (R × BitVec 32)) (m : Member R) (last : Bool),
    (∀ p ∈ q, Carries g name root p) → findLoop g name k vis q = .ok (m, last) →
    ∃ o m0, Inside g name root o m0 ∧ m = { m0 with offset := BitVec.ofNat 32 o } ∧
      (last = true → ∃ c ms, (g c).members? = some ms ∧ ms.getLast? = some m0)
  | k, vis, q, m, last, hq, h => by
    unfold findLoop at h
    split at h
    · cases h
    · next t q' hd =>
      have hmem : ∀ p ∈ t :: q', Carries g name root p := fun p hp => hq p (dropWhile_mem _ _ _ (by rw [hd]; exact hp))
      split at h
      · cases h
      · next k =>
        obtain ⟨o, ho, hin⟩ := hmem t (List.mem_cons_self ..)
        split at h
        · next m' last' hs =>
          simp only [Except.ok.injEq, Prod.mk.injEq] at h
          obtain ⟨rfl, rfl⟩ := h
          obtain ⟨m0, h1, h2, h3, h4⟩ := scan_found g name t.2 _ m' last' hs
          have hm : ∃ ms, (g t.1).members? = some ms ∧ m0 ∈ ms ∧ (last' = true → ms.getLast? = some m0) := by
            cases hg : (g t.1).members? with
            | none => rw [hg] at h1; simp at h1
            | some ms => rw [hg] at h1 h4; exact ⟨ms, rfl, h1, h4⟩
          obtain ⟨ms, hm1, hm2, hm3⟩ := hm
          refine ⟨_, m0, hin _ _ (.here hm1 hm2 h2), ?_, fun hl => ⟨t.1, ms, hm1, hm3 hl⟩⟩
          rw [h3, ho]
          congr 1
          rw [BitVec.ofNat_add, BitVec.ofNat_toNat, BitVec.setWidth_eq, BitVec.add_comm]
        · cases h
        · next cs hs =>
          obtain ⟨h1, h2, h3⟩ := scan_more g name t.2 _ cs hs
          refine findLoop_sound g name root k _ _ m last ?_ h
          intro p hp
          rcases List.mem_append.1 hp with hp | hp
          · exact hmem p (List.mem_cons_of_mem _ hp)
          · obtain ⟨a, ha, hae, hau, hac, hao⟩ := h3 p hp
            have hm : ∃ ms, (g t.1).members? = some ms ∧ a ∈ ms := by
              cases hg : (g t.1).members? with
              | none => rw [hg] at ha; simp at ha
              | some ms => rw [hg] at ha; exact ⟨ms, rfl, ha⟩
            obtain ⟨ms, hm1, hm2⟩ := hm
            refine ⟨o + a.offset.toNat, ?_, ?_⟩
            · rw [hao, ho, BitVec.ofNat_add, BitVec.ofNat_toNat, BitVec.setWidth_eq]
            · intro o' m' hi
              rw [Nat.add_assoc]
              exact hin _ _ (.anon hm1 hm2 hae hau hi)

/-- C35: a member found has the name asked for, is inside the composite, and its offset is the sum of the offsets along the way. -/
theorem findMember_sound (g : Graph R) (c : R) (name : Bytes) (m : Member R) (last : Bool) (h : findMember g c name = .ok (m, last)) :
    ∃ o m0, Inside g name c o m0 ∧ m = { m0 with offset := BitVec.ofNat 32 o } ∧
      (last = true → ∃ c ms, (g c).members? = some ms ∧ ms.getLast? = some m0) := by
  unfold findMember at h
  split at h
  · cases h
  · refine findLoop_sound g name c maxResolveDepth [] [(c, 0)] m last ?_ h
    intro p hp
    simp only [List.mem_singleton] at hp
    subst hp
    exact ⟨0, rfl, fun o' m hi => by rw [Nat.zero_add]; exact hi⟩

/-- Nothing of that name in the composite itself, and its anonymous parts are in `V`. -/
def Cleared (g : Graph R) (name : Bytes) (V : List (R × BitVec 32)) (c : R) : Prop :=
  ∀ ms, (g c).members? = some ms → (∀ m ∈ ms, m.name ≠ name) ∧ ∀ a ∈ ms, a.name = [] → ∃ c', Underlies g a.type c' ∧ ∃ o, (c', o) ∈ V

omit [DecidableEq R] in
theorem cleared_none (g : Graph R) (name : Bytes) (V : List (R × BitVec 32)) (h : ∀ p ∈ V, Cleared g name V p.1) {c : R} {o : Nat} {m : Member R}
    (hi : Inside g name c o m) : (∃ x, (c, x) ∈ V) → False := by
  induction hi with
  | here hm hmem hn => rintro ⟨x, hx⟩; exact (h _ hx _ hm).1 _ hmem hn
  | anon hm hmem hn hu _ ih =>
    rintro ⟨x, hx⟩
    obtain ⟨c'', hu', o', ho'⟩ := (h _ hx _ hm).2 _ hmem hn
    obtain rfl := underlies_unique hu hu'
    exact ih ⟨o', ho'⟩

theorem findLoop_impossible (g : Graph R) (name : Bytes) : ∀ (k : Nat) (vis q : List (R × BitVec 32)),
    (∀ p ∈ vis, Cleared g name (vis ++ q) p.1) → findLoop g name k vis q = .error .impossible →
    ∃ V, (∀ p ∈ vis ++ q, p ∈ V) ∧ ∀ p ∈ V, Cleared g name V p.1
  | k, vis, q, hv, h => by
    unfold findLoop at h
    split at h
    · next hd =>
      refine ⟨vis, ?_, ?_⟩
      · intro p hp
        rcases List.mem_append.1 hp with hp | hp
        · exact hp
        · rcases dropWhile_split (fun x => decide (x ∈ vis)) q p hp with h1 | h1
          · simpa using h1
          · rw [hd] at h1; simp at h1
      · intro p hp ms hm
        obtain ⟨h1, h2⟩ := hv p hp ms hm
        refine ⟨h1, fun a ha hae => ?_⟩
        obtain ⟨c', h3, o, h4⟩ := h2 a ha hae
        refine ⟨c', h3, o, ?_⟩
        rcases List.mem_append.1 h4 with h4 | h4
        · exact h4
        · rcases dropWhile_split (fun x => decide (x ∈ vis)) q _ h4 with h1 | h1
          · simpa using h1
          · rw [hd] at h1; simp at h1
    · next t q' hd =>
      split at h
      · cases h
      · next k =>
        split at h
        · cases h
        · cases h
        · next cs hs =>
          obtain ⟨h1, h2, _⟩ := scan_more g name t.2 _ cs hs
          have sub : ∀ p ∈ vis ++ q, p ∈ t :: vis ++ (q' ++ cs) := by
            intro p hp
            rcases List.mem_append.1 hp with hp | hp
            · simp [hp]
            · rcases dropWhile_split (fun x => decide (x ∈ vis)) q p hp with h1 | h1
              · have : p ∈ vis := by simpa using h1
                simp [this]
              · rw [hd] at h1
                rcases List.mem_cons.1 h1 with rfl | h1
                · simp
                · simp [h1]
          obtain ⟨V, hV1, hV2⟩ := findLoop_impossible g name k (t :: vis) (q' ++ cs) (by
            intro p hp ms hm
            rcases List.mem_cons.1 hp with rfl | hp
            · rw [hm] at h1 h2
              refine ⟨h1, fun a ha hae => ?_⟩
              obtain ⟨c, h3, _, h4⟩ := h2 a ha hae
              exact ⟨c, h3, _, by simp only [List.mem_append]; exact Or.inr (Or.inr h4)⟩
            · obtain ⟨h3, h4⟩ := hv p hp ms hm
              refine ⟨h3, fun a ha hae => ?_⟩
              obtain ⟨c', h5, o, h6⟩ := h4 a ha hae
              exact ⟨c', h5, o, sub _ h6⟩) h
          exact ⟨V, fun p hp => hV1 p (sub p hp), hV2⟩

/-- C35: a member reported missing is missing. -/
theorem findMember_impossible (g : Graph R) (c : R) (name : Bytes) (h : findMember g c name = .error .impossible) :
    ∀ o m, ¬ Inside g name c o m := by
  intro o m hi
  unfold findMember at h
  split at h
  · cases h
  · obtain ⟨V, h1, h2⟩ := findLoop_impossible g name _ [] [(c, 0)] (by simp) h
    exact cleared_none g name V h2 hi ⟨0, h1 _ (by simp)⟩

/-- `c` is `root` or an anonymous composite inside. -/
inductive Part (g : Graph R) : R → R → Prop where
  | self (c) : Part g c c
  | anon {r c ms a c'} : Part g r c → (g c).members? = some ms → a ∈ ms → a.name = [] → Underlies g a.type c' → Part g r c'

theorem findLoop_other (g : Graph R) (name : Bytes) (root : R) : ∀ (k : Nat) (vis q : List (R × BitVec 32)), vis.Nodup →
    (∀ p ∈ vis ++ q, Part g root p.1) → findLoop g name k vis q = .error .other →
    (∃ c ms a, Part g root c ∧ (g c).members? = some ms ∧ a ∈ ms ∧ a.name = [] ∧ ∀ c', Underlies g a.type c' → (g c').members? = none) ∨
    (∃ l : List (R × BitVec 32), l.Nodup ∧ l.length = vis.length + k + 1 ∧ ∀ p ∈ l, Part g root p.1)
  | k, vis, q, hn, hp, h => by
    unfold findLoop at h
    split at h
    · cases h
    · next t q' hd =>
      have ht : t ∈ q := dropWhile_mem _ _ _ (by rw [hd]; simp)
      have htv : t ∉ vis := by
        intro hc
        have := List.head?_dropWhile_not (fun x => decide (x ∈ vis)) q
        rw [hd] at this; simp [hc] at this
      have hq' : ∀ x ∈ q', x ∈ q := fun x hx => dropWhile_mem _ _ _ (by rw [hd]; simp [hx])
      have hpt := hp t (by simp [ht])
      split at h
      · right
        refine ⟨t :: vis, List.nodup_cons.2 ⟨htv, hn⟩, by simp, ?_⟩
        intro p hp'
        rcases List.mem_cons.1 hp' with rfl | hp'
        · exact hpt
        · exact hp p (by simp [hp'])
      · next k =>
        split at h
        · cases h
        · next hs =>
          left
          have key : ∀ ms : List (Member R), scanMembers g name t.2 ms = .bad → ∃ a ∈ ms, a.name = [] ∧ asType g isComposite a.type = none := by
            intro ms
            induction ms with
            | nil => intro h; simp [scanMembers] at h
            | cons x ms ih =>
              intro h
              unfold scanMembers at h
              split at h
              · cases h
              · split at h
                · obtain ⟨a, h1, h2⟩ := ih h; exact ⟨a, List.mem_cons_of_mem _ h1, h2⟩
                · next hx =>
                  split at h
                  · next hc => exact ⟨x, List.mem_cons_self .., by simpa using hx, hc⟩
                  · split at h
                    · cases h
                    · obtain ⟨a, h1, h2⟩ := ih h; exact ⟨a, List.mem_cons_of_mem _ h1, h2⟩
          obtain ⟨a, ha, hae, hac⟩ := key _ hs
          cases hg : (g t.1).members? with
          | none => rw [hg] at ha; simp at ha
          | some ms =>
            rw [hg] at ha
            refine ⟨t.1, ms, a, hpt, hg, ha, hae, ?_⟩
            intro c' hu
            cases hm : (g c').members? with
            | none => rfl
            | some ms' =>
              have := (asComposite g a.type c').2 ⟨hu, by rw [hm]; simp⟩
              rw [this] at hac; cases hac
        · next cs hs =>
          obtain ⟨_, _, h3⟩ := scan_more g name t.2 _ cs hs
          have := findLoop_other g name root k (t :: vis) (q' ++ cs) (List.nodup_cons.2 ⟨htv, hn⟩) (by
            intro p hp'
            simp only [List.mem_append, List.mem_cons] at hp'
            rcases hp' with (rfl | hp') | hp' | hp'
            · exact hpt
            · exact hp p (by simp [hp'])
            · exact hp p (by simp [hq' p hp'])
            · obtain ⟨a, ha, hae, hau, _, _⟩ := h3 p hp'
              cases hg : (g t.1).members? with
              | none => rw [hg] at ha; simp at ha
              | some ms => rw [hg] at ha; exact .anon hpt hg ha hae hau) h
          rcases this with h | ⟨l, h1, h2, h3⟩
          · exact Or.inl h
          · exact Or.inr ⟨l, h1, by simp at h2; omega, h3⟩

/-- C35: any other outcome means the name is empty, an anonymous member is neither struct nor union, or there are more than 32 anonymous
structs and unions (at distinct offsets) to look through. -/
theorem findMember_other (g : Graph R) (c : R) (name : Bytes) (h : findMember g c name = .error .other) :
    name = [] ∨
    (∃ c' ms a, Part g c c' ∧ (g c').members? = some ms ∧ a ∈ ms ∧ a.name = [] ∧ ∀ c'', Underlies g a.type c'' → (g c'').members? = none) ∨
    (∃ l : List (R × BitVec 32), l.Nodup ∧ l.length = 33 ∧ ∀ p ∈ l, Part g c p.1) := by
  unfold findMember at h
  split at h
  · next hn => exact Or.inl hn
  · right
    rcases findLoop_other g name c maxResolveDepth [] [(c, 0)] (by simp) (by simp; exact .self c) h with h | ⟨l, h1, h2, h3⟩
    · exact Or.inl h
    · exact Or.inr ⟨l, h1, by simpa [maxResolveDepth] using h2, h3⟩

/-! ## Following an accessor -/

/-- The field starts `o` bits into its outermost type, as long as that fits in 32 bits. -/
def At (f : CField R) (o : Nat) : Prop := o < 2 ^ 32 → f.offset.toNat * 8 + f.bitfieldOffset.toNat = o

omit [DecidableEq R] in
theorem nth_spec (g : Graph R) (f f' : CField R) (n : Nat) (hb : f.bitfieldOffset = 0) (h : f.nth g n = .ok f') :
    f'.type = f.type ∧ f'.bitfieldOffset = 0 ∧ f'.bitfieldSize = f.bitfieldSize ∧
    ∃ d sz, (n = 0 ∨ HasSize g d f.type sz) ∧ ∀ o, At f o → At f' (o + n * sz * 8) := by
  unfold CField.nth at h
  split at h
  · next hn =>
    injection h with h; subst h
    exact ⟨rfl, hb, rfl, 0, 0, Or.inl hn, fun o h => by simpa using h⟩
  · split at h
    · cases h
    · next size hs =>
      injection h with h; subst h
      obtain ⟨⟨d, hd⟩, _⟩ := sizeof_exact g f.type size hs
      refine ⟨rfl, hb, rfl, d, size, Or.inr hd, ?_⟩
      intro o ho hlt
      have h1 := ho (by omega)
      simp only [hb, BitVec.toNat_zero, Nat.add_zero, BitVec.ofNat_eq_ofNat, BitVec.toNat_ofNat, Nat.zero_mod] at h1 ⊢
      rw [BitVec.toNat_add, BitVec.toNat_mul, BitVec.toNat_ofNat, BitVec.toNat_ofNat, ← Nat.mul_mod, Nat.add_mod_mod, Nat.mod_eq_of_lt (by omega)]
      omega

omit [DecidableEq R] in
theorem adjust_spec (g : Graph R) (fuel : Nat) (f f' : CField R) (off : BitVec 32) (hb : f.bitfieldOffset = 0)
    (h : f.adjustBits g fuel off = .ok f') :
    f'.type = f.type ∧ f'.bitfieldSize = f.bitfieldSize ∧ (∃ al, HasAlign g f.type al ∧ f'.bitfieldOffset.toNat = off.toNat % (8 * al)) ∧
    ∀ o, At f o → At f' (o + off.toNat) := by
  unfold CField.adjustBits at h
  split at h
  · cases h
  · next al ha =>
    injection h with h; subst h
    obtain ⟨h1, ⟨j, h2⟩, h3⟩ := alignof_sound g fuel f.type al ha
    have hpos : 0 < al := by rw [h2]; exact Nat.two_pow_pos j
    have hoff := off.isLt
    have hle : off.toNat / 8 / al * al ≤ off.toNat / 8 := Nat.div_mul_le_self _ _
    have e1 : (off / 8 / BitVec.ofNat 32 al * BitVec.ofNat 32 al).toNat = off.toNat / 8 / al * al := by
      simp only [BitVec.toNat_mul, BitVec.toNat_udiv, BitVec.toNat_ofNat, BitVec.ofNat_eq_ofNat]
      rw [Nat.mod_eq_of_lt h3, show (8 % 2 ^ 32 : Nat) = 8 by decide, Nat.mod_eq_of_lt (by omega)]
    have e2 : (off - off / 8 / BitVec.ofNat 32 al * BitVec.ofNat 32 al * 8).toNat = off.toNat - off.toNat / 8 / al * al * 8 := by
      have e3 : (off / 8 / BitVec.ofNat 32 al * BitVec.ofNat 32 al * 8).toNat = off.toNat / 8 / al * al * 8 := by
        rw [BitVec.toNat_mul, e1, show (8 : BitVec 32).toNat = 8 by decide, Nat.mod_eq_of_lt (by omega)]
      rw [BitVec.toNat_sub_of_le (by rw [BitVec.le_def, e3]; omega), e3]
    refine ⟨rfl, rfl, ⟨al, h1, ?_⟩, ?_⟩
    · simp only [e2]
      rw [Nat.div_div_eq_div_mul, Nat.mod_def, Nat.mul_assoc, Nat.mul_comm al 8, Nat.mul_comm]
    · intro o ho hlt
      have h4 := ho (by omega)
      simp only [hb, BitVec.toNat_ofNat, Nat.zero_mod, Nat.add_zero, BitVec.ofNat_eq_ofNat] at h4
      simp only [e2, BitVec.toNat_add, e1]
      rw [Nat.mod_eq_of_lt (by omega)]
      omega

omit [DecidableEq R] in
theorem at_add (f f' : CField R) (off : BitVec 32) (o x : Nat) (hb : f.bitfieldOffset = 0) (hb' : f'.bitfieldOffset = 0)
    (hf : f'.offset = f.offset + off / 8) (h : At f o) (hx : off = BitVec.ofNat 32 x) (h8 : x % 8 = 0) : At f' (o + x) := by
  intro hlt
  have h1 := h (by omega)
  have e : off.toNat = x := by rw [hx, BitVec.toNat_ofNat, Nat.mod_eq_of_lt (by omega)]
  simp only [hb, hb', BitVec.toNat_ofNat, Nat.zero_mod, Nat.add_zero, BitVec.ofNat_eq_ofNat] at h1 ⊢
  rw [hf, BitVec.toNat_add, show (off / 8).toNat = x / 8 by rw [BitVec.toNat_udiv, e]; rfl, Nat.mod_eq_of_lt (by omega)]
  omega

omit [DecidableEq R] in
theorem inside_aligned (g : Graph R) (hg : ByteAligned g) {name : Bytes} {c : R} {o : Nat} {m : Member R} (h : Inside g name c o m)
    (hb : m.bitfieldSize = 0) : o % 8 = 0 := by
  induction h with
  | here hm hmem _ => exact hg _ _ _ hm hmem (Or.inl hb)
  | anon hm hmem _ hu hi ih =>
    have h1 := ih hb
    have h2 := hg _ _ _ hm hmem (Or.inr ⟨_, hu, by cases hi <;> simp [*]⟩)
    omega

omit [DecidableEq R] in
theorem kindTag_eq_cases (a b : Node R) (h : a.kindTag = b.kindTag) : (∃ i e n, a = .array i e n) → ∃ j f m, b = .array j f m := by
  rintro ⟨i, e, n, rfl⟩
  cases b <;> simp [Node.kindTag] at h
  exact ⟨_, _, _, rfl⟩

omit [DecidableEq R] in
/-- The compatibility check is exact. -/
theorem membersCompatible_iff (g : Graph R) (a b : R) : membersCompatible g a b = .ok () ↔ FieldCompat g a b := by
  unfold membersCompatible FieldCompat
  cases hu : underlyingType g a with
  | none =>
    cases hv : underlyingType g b <;> simp <;> intro u hu' <;> rw [← underlies_iff, hu] at hu' <;> cases hu'
  | some u =>
    cases hv : underlyingType g b with
    | none => simp; intro u' _ v hv'; rw [← underlies_iff, hv] at hv'; cases hv'
    | some v =>
      simp only
      have hu' := (underlies_iff g a u).1 hu
      have hv' := (underlies_iff g b v).1 hv
      constructor
      · intro h
        refine ⟨u, v, hu', hv', ?_⟩
        generalize g u = x at *
        generalize g v = y at *
        split at h
        · next hc => rw [isComposite_iff, isComposite_iff] at hc; exact Or.inl hc
        · split at h
          · cases h
          · next hk =>
            cases x <;> cases y <;> simp [Node.kindTag] at hk <;> simp at h <;> simp [Node.members?]
            · exact (namesMatch_iff _ _).1 h
            · exact (namesMatch_iff _ _).1 h
      · rintro ⟨u', v', h1, h2, h3⟩
        obtain rfl := underlies_unique h1 hu'
        obtain rfl := underlies_unique h2 hv'
        rcases h3 with ⟨h3, h4⟩ | ⟨_, _, _, _, _, _, h3, h4⟩ | ⟨_, _, h3, h4⟩ | ⟨_, _, _, _, h3, h4⟩ | ⟨_, _, _, _, _, _, h3, h4⟩ |
          ⟨_, _, _, _, _, _, _, _, h3, h4, h5⟩ | ⟨_, _, _, _, h3, h4, h5⟩
        · rw [if_pos ⟨(isComposite_iff _).2 h3, (isComposite_iff _).2 h4⟩]
        · rw [h3, h4]; rfl
        · rw [h3, h4]; rfl
        · rw [h3, h4]; rfl
        · rw [h3, h4]; rfl
        · rw [h3, h4]; simp [isComposite, Node.members?, Node.kindTag, Node.name, (namesMatch_iff _ _).2 h5]
        · rw [h3, h4]; simp [isComposite, Node.members?, Node.kindTag, Node.name, (namesMatch_iff _ _).2 h5]

omit [DecidableEq R] in
theorem fieldCompat_composite {g : Graph R} {a b u : R} (h : FieldCompat g a b) (hu : Underlies g a u) (hc : (g u).members? ≠ none) :
    ∃ v, Underlies g b v ∧ (g v).members? ≠ none := by
  obtain ⟨u', v, h1, h2, h3⟩ := h
  obtain rfl := underlies_unique hu h1
  rcases h3 with ⟨_, h4⟩ | ⟨_, _, _, _, _, _, h3, h4⟩ | ⟨_, _, h3, h4⟩ | ⟨_, _, _, _, h3, h4⟩ | ⟨_, _, _, _, _, _, h3, h4⟩ |
    ⟨_, _, _, _, _, _, _, _, h3, h4, h5⟩ | ⟨_, _, _, _, h3, h4, h5⟩
  · exact ⟨v, h2, h4⟩
  all_goals rw [h3] at hc; simp [Node.members?] at hc

/-- The state of the search after following the accessor `acc`, which is the path `path`. -/
def Followed (g : Graph R) (l t : R) (acc : List Nat) (path : List Sel) (st : FindState R) (lo to : Nat) : Prop :=
  Access g l acc path st.loc.type lo st.loc.bitfieldSize.toNat ∧ Path g t path st.target.type to st.target.bitfieldSize.toNat ∧
  At st.loc lo ∧ At st.target to

/-- No bitfields so far. -/
def Plain (st : FindState R) : Prop :=
  st.loc.bitfieldOffset = 0 ∧ st.loc.bitfieldSize = 0 ∧ st.target.bitfieldOffset = 0 ∧ st.target.bitfieldSize = 0

theorem fieldStep_spec (g : Graph R) (hg : ByteAligned g) (fuel : Nat) (l t : R) (acc : List Nat) (path : List Sel) (st st' : FindState R)
    (lo to i : Nat) (more skip : Bool) (hf : Followed g l t acc path st lo to) (hp : Plain st) (hc : FieldCompat g st.loc.type st.target.type)
    (h : fieldStep g fuel st i more = .ok (st', skip)) :
    ∃ path' lo' to', Followed g l t (acc ++ [i]) path' st' lo' to' ∧
      (more = true ∨ (st'.loc.bitfieldSize = 0 ∧ st'.target.bitfieldSize = 0) → Plain st') ∧
      (skip = true → FieldCompat g st'.loc.type st'.target.type ∧ Plain st') := by
  obtain ⟨ha, hpa, hlo, hto⟩ := hf
  obtain ⟨p1, p2, p3, p4⟩ := hp
  rw [p2, show (0 : BitVec 32).toNat = 0 from rfl] at ha
  rw [p4, show (0 : BitVec 32).toNat = 0 from rfl] at hpa
  unfold fieldStep at h
  split at h
  · cases h
  · next u hu =>
    have hu' := (underlies_iff g _ _).1 hu
    split at h
    · next ix le ln hgu =>
      split at h
      · cases h
      · next a hta =>
        rw [asType_underlies g _ (by intro n; cases n <;> simp [isArray, Node.peel?, Node.qualify?])] at hta
        obtain ⟨hta, _⟩ := hta
        split at h
        · next jx te tn hga =>
          split at h; · cases h
          split at h; · cases h
          split at h; · cases h
          next hl1 =>
          split at h; · cases h
          next ht1 =>
          split at h
          · cases h
          · next lf hlf =>
            split at h
            · cases h
            · next tf htf =>
              simp only [Except.ok.injEq, Prod.mk.injEq] at h
              obtain ⟨rfl, rfl⟩ := h
              obtain ⟨l1, l2, l3, d, sz, l4, l5⟩ := nth_spec g _ lf i rfl hlf
              obtain ⟨t1, t2, t3, d', sz', t4, t5⟩ := nth_spec g _ tf i rfl htf
              have bound : ∀ n : BitVec 32, ¬ (n ≠ 0 ∧ n.toNat ≤ i) → n = 0 ∨ i < n.toNat := by
                intro n h
                by_cases hn : n = 0
                · exact Or.inl hn
                · exact Or.inr (Nat.lt_of_not_le fun hle => h ⟨hn, hle⟩)
              refine ⟨path ++ [.index i], lo + i * sz * 8, to + i * sz' * 8, ⟨?_, ?_, ?_, ?_⟩, ?_, by simp⟩
              · simp only [l1, l3]; exact .index ha hu' hgu (bound ln hl1) l4
              · simp only [t1, t3]; exact .index hpa hta hga (bound tn ht1) t4
              · exact l5 lo (fun hlt => by simpa [p1] using hlo hlt)
              · exact t5 to (fun hlt => by simpa [p3] using hto hlt)
              · intro _; exact ⟨l2, l3, t2, t3⟩
        · cases h
    · split at h
      · cases h
      · next ms hms =>
        split at h
        · cases h
        · next m hm =>
          have hmem : m ∈ ms := List.mem_of_getElem? hm
          split at h
          · next hme =>
            split at h
            · cases h
            · next c hc' =>
              obtain ⟨hc1, hc2⟩ := (asComposite g _ _).1 hc'
              simp only [Except.ok.injEq, Prod.mk.injEq] at h
              obtain ⟨rfl, rfl⟩ := h
              have hpl : Plain ({ st with loc := { type := c, offset := st.loc.offset + m.offset / 8 }, localFlex := false } : FindState R) :=
                ⟨rfl, rfl, p3, p4⟩
              refine ⟨path, lo + m.offset.toNat, to, ⟨?_, ?_, ?_, hto⟩, fun _ => hpl, fun _ => ⟨?_, hpl⟩⟩
              · exact .anon ha hu' hms hm hme hc1 hc2
              · simp only [p4]; exact hpa
              · refine at_add st.loc _ m.offset lo _ p1 rfl rfl hlo (by simp) (hg _ _ _ hms hmem (Or.inr ⟨c, hc1, hc2⟩))
              · obtain ⟨v, hv1, hv2⟩ := fieldCompat_composite hc hu' (by rw [hms]; simp)
                refine ⟨c, v, ⟨0, by omega, .refl c, ?_⟩, hv1, Or.inl ⟨hc2, hv2⟩⟩
                intro w hw
                have := peel_some g c w hw
                cases hgc : g c <;> simp [hgc, Node.peel?, Node.qualify?, Node.members?] at this hc2
          · next hme =>
            split at h
            · cases h
            · next c hc' =>
              obtain ⟨hc1, hc2⟩ := (asComposite g _ _).1 hc'
              split at h
              · cases h
              · next tm last hfm =>
                obtain ⟨o', m0, hin, htm, _⟩ := findMember_sound g c m.name tm last hfm
                subst htm
                simp only at h
                split at h
                · next hz =>
                  obtain ⟨hz1, hz2⟩ := hz
                  simp only [Except.ok.injEq, Prod.mk.injEq] at h
                  obtain ⟨rfl, rfl⟩ := h
                  refine ⟨path ++ [.field m.name], lo + m.offset.toNat, to + o', ⟨?_, ?_, ?_, ?_⟩, fun _ => ⟨rfl, hz1, rfl, hz2⟩, by simp⟩
                  · exact .field ha hu' hms hm hme
                  · exact .field hpa hc1 hin
                  · exact at_add st.loc _ m.offset lo _ p1 rfl rfl hlo (by simp) (hg _ _ _ hms hmem (Or.inl hz1))
                  · exact at_add st.target _ _ to _ p3 rfl rfl hto rfl (inside_aligned g hg hin hz2)
                · next hz =>
                  split at h
                  · cases h
                  · next hmore =>
                    split at h
                    · cases h
                    · next lf hlf =>
                      split at h
                      · cases h
                      · next tf htf =>
                        simp only [Except.ok.injEq, Prod.mk.injEq] at h
                        obtain ⟨rfl, rfl⟩ := h
                        obtain ⟨l1, l2, l3, l4⟩ := adjust_spec g fuel _ lf m.offset rfl hlf
                        obtain ⟨t1, t2, t3, t4⟩ := adjust_spec g fuel _ tf _ rfl htf
                        refine ⟨path ++ [.field m.name], lo + m.offset.toNat, to + o', ⟨?_, ?_, ?_, ?_⟩, fun h => h.elim (fun h => absurd h hmore)
                          fun h => absurd (by rw [l2, t2] at h; exact h) hz, by simp⟩
                        · simp only [l1, l2]; exact .field ha hu' hms hm hme
                        · simp only [t1, t2]; exact .field hpa hc1 hin
                        · exact l4 lo (fun hlt => by simpa [p1] using hlo hlt)
                        · intro hlt
                          have e : (BitVec.ofNat 32 o').toNat = o' := by rw [BitVec.toNat_ofNat, Nat.mod_eq_of_lt (by omega)]
                          have := t4 to (fun hlt => by simpa [p3] using hto hlt)
                          rw [e] at this; exact this hlt

theorem fieldLoop_spec (g : Graph R) (hg : ByteAligned g) (fuel : Nat) (l t : R) : ∀ (accs acc : List Nat) (path : List Sel) (st : FindState R)
    (lo to : Nat) (lf tf : CField R), Followed g l t acc path st lo to → Plain st → FieldCompat g st.loc.type st.target.type →
    fieldLoop g fuel accs st = .ok (lf, tf) →
    ∃ path' lo' to' x y, Followed g l t (acc ++ accs) path' ⟨lf, tf, x, y⟩ lo' to' ∧ FieldCompat g lf.type tf.type ∧
      (lf.bitfieldSize = 0 → tf.bitfieldSize = 0 → lf.bitfieldOffset = 0 ∧ tf.bitfieldOffset = 0)
  | [], acc, path, st, lo, to, lf, tf, hf, hp, hc, h => by
    simp only [fieldLoop, Except.ok.injEq, Prod.mk.injEq] at h
    obtain ⟨rfl, rfl⟩ := h
    exact ⟨path, lo, to, false, false, by rw [List.append_nil]; exact hf, hc, fun _ _ => ⟨hp.1, hp.2.2.1⟩⟩
  | i :: accs, acc, path, st, lo, to, lf, tf, hf, hp, hc, h => by
    unfold fieldLoop at h
    split at h
    · cases h
    · next st' skip hs =>
      obtain ⟨path', lo', to', h1, h2, h3⟩ := fieldStep_spec g hg fuel l t acc path st st' lo to i _ skip hf hp hc hs
      have go : FieldCompat g st'.loc.type st'.target.type → fieldLoop g fuel accs st' = .ok (lf, tf) →
          ∃ path' lo' to' x y, Followed g l t (acc ++ i :: accs) path' ⟨lf, tf, x, y⟩ lo' to' ∧ FieldCompat g lf.type tf.type ∧
            (lf.bitfieldSize = 0 → tf.bitfieldSize = 0 → lf.bitfieldOffset = 0 ∧ tf.bitfieldOffset = 0) := by
        intro hc' h
        cases accs with
        | nil =>
          simp only [fieldLoop, Except.ok.injEq, Prod.mk.injEq] at h
          obtain ⟨rfl, rfl⟩ := h
          exact ⟨path', lo', to', false, false, h1, hc', fun a b => by have := h2 (Or.inr ⟨a, b⟩); exact ⟨this.1, this.2.2.1⟩⟩
        | cons j accs =>
          have := fieldLoop_spec g hg fuel l t (j :: accs) (acc ++ [i]) path' st' lo' to' lf tf h1 (h2 (Or.inl rfl)) hc' h
          simpa using this
      split at h
      · next hk => exact go (h3 hk).1 h
      · split at h
        · cases h
        · next hm => exact go ((membersCompatible_iff g _ _).1 hm) h

/-- C35: a field relocation that succeeds refers to the same path of names and indices in both types; the offsets are the sums of the
offsets along that path, and the types found are compatible. -/
theorem findField_sound (g : Graph R) (hg : ByteAligned g) (fuel : Nat) (l : R) (acc : Nat) (accs : List Nat) (t : R) (lf tf : CField R)
    (h : findField g fuel l acc accs t = .ok (lf, tf)) :
    ∃ path lo to, Access g l (acc :: accs) path lf.type lo lf.bitfieldSize.toNat ∧ Path g t path tf.type to tf.bitfieldSize.toNat ∧
      (lo < 2 ^ 32 → lf.offset.toNat * 8 + lf.bitfieldOffset.toNat = lo) ∧ (to < 2 ^ 32 → tf.offset.toNat * 8 + tf.bitfieldOffset.toNat = to) ∧
      FieldCompat g lf.type tf.type ∧ (lf.bitfieldSize = 0 → tf.bitfieldSize = 0 → lf.bitfieldOffset = 0 ∧ tf.bitfieldOffset = 0) := by
  unfold findField at h
  split at h
  · cases h
  · next hc =>
    split at h
    · cases h
    · next l0 hl =>
      split at h
      · cases h
      · next t0 ht =>
        obtain ⟨l1, l2, l3, d, sz, l4, l5⟩ := nth_spec g _ l0 acc rfl hl
        obtain ⟨t1, t2, t3, d', sz', t4, t5⟩ := nth_spec g _ t0 acc rfl ht
        obtain ⟨path', lo', to', x, y, ⟨h1, h2, h3, h4⟩, h5⟩ := fieldLoop_spec g hg fuel l t accs [acc] [.index acc] { loc := l0, target := t0 }
          (acc * sz * 8) (acc * sz' * 8) lf tf
          ⟨by simp only [l1, l3]; exact .start l4, by simp only [t1, t3]; exact .start t4,
            by have := l5 0 (by simp [At]); rwa [Nat.zero_add] at this, by have := t5 0 (by simp [At]); rwa [Nat.zero_add] at this⟩
          ⟨l2, l3, t2, t3⟩ (by simp only [l1, t1]; exact (membersCompatible_iff g _ _).1 hc) h
        exact ⟨path', lo', to', h1, h2, h3, h4, h5⟩

/-! ## Impossible relocations -/

/-- Going on with index `i` from a local `lt` and a target `tt` is impossible: the target has no such member, or no such element. -/
def NoStep (g : Graph R) (lt tt : R) (i : Nat) : Prop :=
  (∃ u ix e n, Underlies g lt u ∧ g u = .array ix e n ∧ ∀ v jx f m, Underlies g tt v → g v = .array jx f m → m ≠ 0 ∧ m.toNat ≤ i) ∨
  (∃ c ms m, Underlies g lt c ∧ (g c).members? = some ms ∧ ms[i]? = some m ∧ m.name ≠ [] ∧ ∀ v o m', Underlies g tt v → ¬ Inside g m.name v o m')

omit [DecidableEq R] in
theorem inside_composite {g : Graph R} {name : Bytes} {c : R} {o : Nat} {m : Member R} (h : Inside g name c o m) : (g c).members? ≠ none := by
  cases h <;> simp [*]

theorem fieldStep_impossible (g : Graph R) (fuel : Nat) (st : FindState R) (i : Nat) (more : Bool)
    (h : fieldStep g fuel st i more = .error .impossible) : NoStep g st.loc.type st.target.type i := by
  unfold fieldStep at h
  split at h
  · cases h
  · next u hu =>
    have hu' := (underlies_iff g _ _).1 hu
    split at h
    · next ix le ln hgu =>
      left
      refine ⟨u, ix, le, ln, hu', hgu, ?_⟩
      intro v jx f m hv hgv
      have has : asType g isArray st.target.type = some v := by
        rw [asType_underlies g _ (by intro n; cases n <;> simp [isArray, Node.peel?, Node.qualify?])]
        exact ⟨hv, by rw [hgv]; rfl⟩
      rw [has] at h
      simp only [hgv] at h
      split at h; · cases h
      split at h; · cases h
      split at h; · cases h
      split at h
      · next hb => exact hb
      · have nn : ∀ (f : CField R) n e, f.nth g n = .error e → e = .other := by
          intro f n e h
          unfold CField.nth at h
          split at h
          · cases h
          · split at h
            · injection h with h; exact h.symm
            · cases h
        split at h
        · next e he => have := nn _ _ _ he; subst this; cases h
        · split at h
          · next e he => have := nn _ _ _ he; subst this; cases h
          · cases h
    · split at h
      · cases h
      · next ms hms =>
        split at h
        · cases h
        · next m hm =>
          split at h
          · split at h <;> cases h
          · next hme =>
            right
            refine ⟨u, ms, m, hu', hms, hm, hme, ?_⟩
            intro v o m' hv hin
            have has : asType g isComposite st.target.type = some v := (asComposite g _ _).2 ⟨hv, inside_composite hin⟩
            rw [has] at h
            simp only at h
            split at h
            · next e he =>
              injection h with h; subst h
              exact findMember_impossible g v m.name he o m' hin
            · have na : ∀ (f : CField R) n e, f.adjustBits g fuel n = .error e → e = .other := by
                intro f n e h
                unfold CField.adjustBits at h
                split at h
                · injection h with h; exact h.symm
                · cases h
              split at h
              · cases h
              · split at h
                · cases h
                · split at h
                  · next e he => have := na _ _ _ he; subst this; cases h
                  · split at h
                    · next e he => have := na _ _ _ he; subst this; cases h
                    · cases h

theorem fieldLoop_impossible (g : Graph R) (hg : ByteAligned g) (fuel : Nat) (l t : R) : ∀ (accs acc : List Nat) (path : List Sel) (st : FindState R)
    (lo to : Nat), Followed g l t acc path st lo to → Plain st → FieldCompat g st.loc.type st.target.type →
    fieldLoop g fuel accs st = .error .impossible →
    (∃ pre i post path lt tt lo to, accs = pre ++ i :: post ∧ Access g l (acc ++ pre) path lt lo 0 ∧ Path g t path tt to 0 ∧ NoStep g lt tt i) ∨
    (∃ pre post path lt tt lo to lb tb, accs = pre ++ post ∧ Access g l (acc ++ pre) path lt lo lb ∧ Path g t path tt to tb ∧ ¬ FieldCompat g lt tt)
  | [], acc, path, st, lo, to, hf, hp, hc, h => by simp [fieldLoop] at h
  | i :: accs, acc, path, st, lo, to, hf, hp, hc, h => by
    unfold fieldLoop at h
    split at h
    · next e hs =>
      injection h with h; subst h
      left
      obtain ⟨h1, h2, _, _⟩ := hf
      obtain ⟨_, p2, _, p4⟩ := hp
      rw [p2] at h1; rw [p4] at h2
      exact ⟨[], i, accs, path, _, _, lo, to, rfl, by simpa using h1, h2, fieldStep_impossible g fuel st i _ hs⟩
    · next st' skip hs =>
      obtain ⟨path', lo', to', h1, h2, h3⟩ := fieldStep_spec g hg fuel l t acc path st st' lo to i _ skip hf hp hc hs
      have go : FieldCompat g st'.loc.type st'.target.type → fieldLoop g fuel accs st' = .error .impossible →
          (∃ pre j post path lt tt lo to, i :: accs = pre ++ j :: post ∧ Access g l (acc ++ pre) path lt lo 0 ∧ Path g t path tt to 0 ∧ NoStep g lt tt j) ∨
          (∃ pre post path lt tt lo to lb tb, i :: accs = pre ++ post ∧ Access g l (acc ++ pre) path lt lo lb ∧ Path g t path tt to tb ∧ ¬ FieldCompat g lt tt) := by
        intro hc' h
        cases accs with
        | nil => simp [fieldLoop] at h
        | cons j accs =>
          rcases fieldLoop_impossible g hg fuel l t (j :: accs) (acc ++ [i]) path' st' lo' to' h1 (h2 (Or.inl rfl)) hc' h with
            ⟨pre, j, post, p, lt, tt, lo, to, e, h5, h6, h7⟩ | ⟨pre, post, p, lt, tt, lo, to, lb, tb, e, h5, h6, h7⟩
          · exact Or.inl ⟨i :: pre, j, post, p, lt, tt, lo, to, by rw [e]; rfl, by simpa using h5, h6, h7⟩
          · exact Or.inr ⟨i :: pre, post, p, lt, tt, lo, to, lb, tb, by rw [e]; rfl, by simpa using h5, h6, h7⟩
      split at h
      · next hk => exact go (h3 hk).1 h
      · split at h
        · next hm =>
          right
          refine ⟨[i], accs, path', _, _, lo', to', _, _, rfl, h1.1, h1.2.1, ?_⟩
          rw [← membersCompatible_iff, hm]
          simp
        · next hm => exact go ((membersCompatible_iff g _ _).1 hm) h

/-- C35: an impossible relocation has a reason: following a part of the accessor through both types arrives at incompatible types, or at
types where the target lacks the next member or array element. -/
theorem findField_impossible (g : Graph R) (hg : ByteAligned g) (fuel : Nat) (l : R) (acc : Nat) (accs : List Nat) (t : R)
    (h : findField g fuel l acc accs t = .error .impossible) :
    (¬ FieldCompat g l t) ∨
    (∃ pre i post path lt tt lo to, accs = pre ++ i :: post ∧ Access g l (acc :: pre) path lt lo 0 ∧ Path g t path tt to 0 ∧ NoStep g lt tt i) ∨
    (∃ pre post path lt tt lo to lb tb, accs = pre ++ post ∧ Access g l (acc :: pre) path lt lo lb ∧ Path g t path tt to tb ∧ ¬ FieldCompat g lt tt) := by
  unfold findField at h
  split at h
  · next hm =>
    left; rw [← membersCompatible_iff, hm]; simp
  · next hc =>
    right
    have nn : ∀ (f : CField R) n e, f.nth g n = .error e → e = .other := by
      intro f n e h
      unfold CField.nth at h
      split at h
      · cases h
      · split at h
        · injection h with h; exact h.symm
        · cases h
    split at h
    · next e he => have := nn _ _ _ he; subst this; cases h
    · next l0 hl =>
      split at h
      · next e he => have := nn _ _ _ he; subst this; cases h
      · next t0 ht =>
        obtain ⟨l1, l2, l3, d, sz, l4, l5⟩ := nth_spec g _ l0 acc rfl hl
        obtain ⟨t1, t2, t3, d', sz', t4, t5⟩ := nth_spec g _ t0 acc rfl ht
        exact fieldLoop_impossible g hg fuel l t accs [acc] [.index acc] { loc := l0, target := t0 }
          (acc * sz * 8) (acc * sz' * 8)
          ⟨by simp only [l1, l3]; exact .start l4, by simp only [t1, t3]; exact .start t4,
            by have := l5 0 (by simp [At]); rwa [Nat.zero_add] at this, by have := t5 0 (by simp [At]); rwa [Nat.zero_add] at this⟩
          ⟨l2, l3, t2, t3⟩ (by simp only [l1, t1]; exact (membersCompatible_iff g _ _).1 hc) h

/-! ## C34 -/

omit [DecidableEq R] in
theorem sizeBits_spec (g : Graph R) (f : CField R) (w : Nat) (hw : sizeof g f.type = .ok w) (h8 : w ≤ 8) :
    ∃ s, f.sizeBits g = .ok s ∧ s.toNat = if f.bitfieldSize = 0 then 8 * w else f.bitfieldSize.toNat := by
  unfold CField.sizeBits
  by_cases hb : f.bitfieldSize = 0
  · refine ⟨BitVec.ofNat 32 (w * 8), by simp [hb, hw], ?_⟩
    rw [if_pos hb, BitVec.toNat_ofNat, Nat.mod_eq_of_lt (by omega)]; omega
  · exact ⟨f.bitfieldSize, by rw [if_pos hb], by rw [if_neg hb]⟩

/-- C34: the relocated load and shifts read the bits of the target field, which is the field the local access names, if the relocated load
covers them. `s` is the size of the field in bits, `o` its position. -/
theorem bitfield_read_partial (g : Graph R) (hg : ByteAligned g) (fuel : Nat) (l : R) (acc : Nat) (accs : List Nat) (t : R) (lf tf : CField R)
    (h : findField g fuel l acc accs t = .ok (lf, tf)) (le : Bool) (off size lsh rsh : Fixup)
    (hoff : fieldFixup g le .byteOffset lf tf = .ok off) (hsize : fieldFixup g le .byteSize lf tf = .ok size)
    (hlsh : fieldFixup g le .lshift lf tf = .ok lsh) (hrsh : fieldFixup g le .rshift lf tf = .ok rsh) :
    ∃ path lo o b, Access g l (acc :: accs) path lf.type lo lf.bitfieldSize.toNat ∧ Path g t path tf.type o b ∧
      ∀ (s : Nat) (mem : Bytes), s = (if b = 0 then 8 * size.target.toNat else b) → 0 < s → o < 2 ^ 32 → size.target.toNat ≤ 8 →
        off.target.toNat + size.target.toNat ≤ mem.length → o + s ≤ 8 * (off.target.toNat + size.target.toNat) →
        (readField le mem off.target.toNat size.target.toNat lsh.target rsh.target false).toNat = fieldValue le mem o s ∧
        (readField le mem off.target.toNat size.target.toNat lsh.target rsh.target true).toInt = (BitVec.ofNat s (fieldValue le mem o s)).toInt := by
  obtain ⟨path, lo, o, h1, h2, _, h4, _⟩ := findField_sound g hg fuel l acc accs t lf tf h
  refine ⟨path, lo, o, _, h1, h2, ?_⟩
  intro s mem hs hpos ho hw hm hcov
  simp only [fieldFixup] at hoff hsize hlsh hrsh
  injection hoff with hoff
  subst hoff
  split at hsize
  case h_2 => cases hsize
  next a w ha hwt =>
  injection hsize with hsize
  subst hsize
  have hw63 := (sizeof_exact g _ w hwt).2
  simp only [BitVec.toNat_ofNat, Nat.mod_eq_of_lt (show w < 2 ^ 64 by omega)] at hs hw hm hcov ⊢
  have e1 : (tf.offset.setWidth 64).toNat = tf.offset.toNat := by
    rw [BitVec.toNat_setWidth, Nat.mod_eq_of_lt (by have := tf.offset.isLt; omega)]
  simp only [e1] at hm hcov ⊢
  have hat := h4 ho
  obtain ⟨sb, hsb, hsbn⟩ := sizeBits_spec g tf w hwt hw
  have hz : tf.bitfieldSize.toNat = 0 ↔ tf.bitfieldSize = 0 := by
    constructor
    · intro h; exact BitVec.eq_of_toNat_eq (by simpa using h)
    · intro h; rw [h]; rfl
  have hs' : sb.toNat = s := by
    rw [hs, hsbn]
    by_cases hb : tf.bitfieldSize = 0
    · rw [if_pos hb, if_pos (hz.2 hb)]
    · rw [if_neg hb, if_neg (fun h => hb (hz.1 h))]
  have hcov' : tf.bitfieldOffset.toNat + s ≤ 8 * w := by omega
  have hr : rsh.target = BitVec.ofNat 64 (64 - s) := by
    unfold rshiftOf at hrsh
    rw [hsb] at hrsh
    simp only [Except.ok.injEq] at hrsh
    subst hrsh
    apply BitVec.eq_of_toNat_eq
    rw [BitVec.toNat_setWidth, BitVec.toNat_sub_of_le (by rw [BitVec.le_def, hs']; show s ≤ 64; omega), hs', BitVec.toNat_ofNat]
    rfl
  have hl : lsh.target = BitVec.ofNat 64 (shl le w tf.bitfieldOffset.toNat s) := by
    unfold lshiftOf at hlsh
    apply BitVec.eq_of_toNat_eq
    cases le with
    | true =>
      simp only [if_true, hsb] at hlsh
      injection hlsh with hlsh; subst hlsh
      have h64 : (64 : BitVec 32).toNat = 64 := rfl
      have e2 : (64 - tf.bitfieldOffset).toNat = 64 - tf.bitfieldOffset.toNat := by
        rw [BitVec.toNat_sub_of_le (by rw [BitVec.le_def, h64]; omega), h64]
      rw [BitVec.toNat_setWidth, BitVec.toNat_sub_of_le (by rw [BitVec.le_def, hs', e2]; omega), hs', e2, BitVec.toNat_ofNat]
      simp [shl]
    | false =>
      simp only [Bool.false_eq_true, if_false, hwt] at hlsh
      injection hlsh with hlsh; subst hlsh
      have h64 : (64 : BitVec 32).toNat = 64 := rfl
      have e3 : (BitVec.ofNat 32 (w * 8)).toNat = w * 8 := by rw [BitVec.toNat_ofNat, Nat.mod_eq_of_lt (by omega)]
      have e2 : (64 - BitVec.ofNat 32 (w * 8)).toNat = 64 - w * 8 := by
        rw [BitVec.toNat_sub_of_le (by rw [BitVec.le_def, h64, e3]; omega), h64, e3]
      rw [BitVec.toNat_setWidth, BitVec.toNat_add, e2, BitVec.toNat_ofNat, Nat.mod_eq_of_lt (show 64 - w * 8 + tf.bitfieldOffset.toNat < 2 ^ 32 by omega)]
      simp only [shl, Bool.false_eq_true, if_false]
      rw [Nat.mul_comm w 8]
  rw [hl, hr, show o = 8 * tf.offset.toNat + tf.bitfieldOffset.toNat by omega]
  exact ⟨readField_unsigned le mem _ w _ s hpos hw hcov' hm, readField_signed le mem _ w _ s hpos hw hcov' hm⟩

omit [DecidableEq R] in
/-- C34: an integer or enum bitfield that doesn't cross a multiple of its type's size inside its struct is covered by the load. -/
theorem adjustBits_covers (g : Graph R) (fuel : Nat) (f f' : CField R) (off : BitVec 32) (hb : f.bitfieldOffset = 0)
    (h : f.adjustBits g fuel off = .ok f') (w s : Nat) (hal : ∀ al, HasAlign g f.type al → al = w) (hs : off.toNat % (8 * w) + s ≤ 8 * w) :
    f'.bitfieldOffset.toNat + s ≤ 8 * w := by
  obtain ⟨_, _, ⟨al, h1, h2⟩, _⟩ := adjust_spec g fuel f f' off hb h
  obtain rfl := hal al h1
  omega

/-- C34: the signedness reported is that of the local and the target field. -/
def SignedField (g : Graph R) (t : R) (b : Bool) : Prop :=
  ∃ u, Underlies g t u ∧ ((∃ n s vs, g u = .enum n s b vs) ∨ (∃ n s e, g u = .int n s e ∧ (b = true ↔ e.toNat % 2 = 1)))

omit [DecidableEq R] in
theorem b2u_enc (e : BitVec 8) : (e &&& 1).setWidth 64 = b2u (decide (e.toNat % 2 = 1)) := by
  revert e; decide

omit [DecidableEq R] in
theorem signed_exact (g : Graph R) (l t : CField R) (a b : BitVec 64) (h : signedOf g l t = .ok (a, b)) :
    ∃ x y, a = b2u x ∧ b = b2u y ∧ SignedField g l.type x ∧ SignedField g t.type y := by
  unfold signedOf at h
  split at h
  · cases h
  · next u hu =>
    have hu' := (underlies_iff g _ _).1 hu
    split at h
    · next n s sg vs hgu =>
      split at h
      · cases h
      · next v hv =>
        rw [asType_underlies g _ (by intro n; cases n <;> simp [isEnum, Node.peel?, Node.qualify?])] at hv
        split at h
        · next n' s' sg' vs' hgv =>
          simp only [Except.ok.injEq, Prod.mk.injEq] at h
          exact ⟨sg, sg', h.1.symm, h.2.symm, ⟨u, hu', Or.inl ⟨_, _, _, hgu⟩⟩, ⟨v, hv.1, Or.inl ⟨_, _, _, hgv⟩⟩⟩
        · cases h
    · next n s enc hgu =>
      split at h
      · cases h
      · next v hv =>
        rw [asType_underlies g _ (by intro n; cases n <;> simp [isInt, Node.peel?, Node.qualify?])] at hv
        split at h
        · next n' s' enc' hgv =>
          simp only [Except.ok.injEq, Prod.mk.injEq] at h
          refine ⟨decide (enc.toNat % 2 = 1), decide (enc'.toNat % 2 = 1), ?_, ?_, ⟨u, hu', Or.inr ⟨_, _, _, hgu, by simp⟩⟩, ⟨v, hv.1, Or.inr ⟨_, _, _, hgv, by simp⟩⟩⟩
          · rw [← h.1, b2u_enc]
          · rw [← h.2, b2u_enc]
        · cases h
    · cases h

end

end Ebpf.Btf
