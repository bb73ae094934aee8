import Verif.Spec.Uprobe
/-!
# C69: uprobes are placed at the code of the function
-/
namespace Ebpf.Uprobe
open Ebpf.UprobeSpec

/-! ## the cache -/

theorem load_spec (segs : List Segment) : ∀ (ss : List ElfSym) (c : Cache) (n : Bytes),
    (∀ s ∈ ss, ∀ t ∈ ss, s.isFunc = true → t.isFunc = true → s.name = t.name → s = t) →
    (∀ s ∈ ss, s.isFunc = true → s.name = n → load segs ss c n = some ⟨symbolAddress s.value segs, s.size⟩) ∧
    ((∀ s ∈ ss, s.isFunc = true → s.name ≠ n) → load segs ss c n = c n)
  | [], c, n, _ => ⟨by intro s hs; (cases hs), fun _ => rfl⟩
  | s :: ss, c, n, hu => by
    have hu' : ∀ a ∈ ss, ∀ b ∈ ss, a.isFunc = true → b.isFunc = true → a.name = b.name → a = b :=
      fun a ha b hb => hu a (List.mem_cons_of_mem _ ha) b (List.mem_cons_of_mem _ hb)
    unfold load
    by_cases hf : s.isFunc = true
    · rw [if_neg (by rw [hf]; decide)]
      obtain ⟨i1, i2⟩ := load_spec segs ss (fun m => if m = s.name then some ⟨symbolAddress s.value segs, s.size⟩ else c m) n hu'
      refine ⟨?_, ?_⟩
      · intro t ht htf htn
        by_cases hex : ∃ t' ∈ ss, t'.isFunc = true ∧ t'.name = n
        · obtain ⟨t', h1, h2, h3⟩ := hex
          have he : t = t' := hu t ht t' (List.mem_cons_of_mem _ h1) htf h2 (htn.trans h3.symm)
          subst he
          exact i1 t h1 htf htn
        · have hn : ∀ s ∈ ss, s.isFunc = true → s.name ≠ n := fun a ha hb hc => hex ⟨a, ha, hb, hc⟩
          rw [i2 hn]
          rcases List.mem_cons.1 ht with he | he
          · subst he
            simp only [htn, if_true]
          · exact absurd htn (hn t he htf)
      · intro hall
        rw [i2 (fun a ha => hall a (List.mem_cons_of_mem _ ha))]
        exact if_neg (fun h => hall s List.mem_cons_self hf h.symm)
    · have hf' : s.isFunc = false := by simpa using hf
      rw [if_pos (by rw [hf']; decide)]
      obtain ⟨i1, i2⟩ := load_spec segs ss c n hu'
      refine ⟨?_, ?_⟩
      · intro t ht htf htn
        rcases List.mem_cons.1 ht with he | he
        · subst he; rw [hf'] at htf; cases htf
        · exact i1 t he htf htn
      · intro hall
        exact i2 (fun a ha => hall a (List.mem_cons_of_mem _ ha))

/-- The address of a defined function is its offset in the file. -/
theorem symbolAddress_code (value : BitVec 64) : ∀ (segs : List Segment) (p : Segment),
    (∀ p ∈ segs, p.vaddr.toNat + p.memsz.toNat < 2 ^ 64 ∧ p.off.toNat + p.memsz.toNat < 2 ^ 64 ∧ p.filesz.toNat ≤ p.memsz.toNat) →
    (∀ q ∈ segs, q.load = true → q.vaddr.toNat ≤ value.toNat → value.toNat < q.vaddr.toNat + q.memsz.toNat → q = p) →
    p ∈ segs → p.load = true → p.exec = true → p.vaddr.toNat ≤ value.toNat → value.toNat < p.vaddr.toNat + p.memsz.toNat →
    (symbolAddress value segs).toNat = p.off.toNat + (value.toNat - p.vaddr.toNat)
  | [], p, _, _, hm, _, _, _, _ => by cases hm
  | q :: qs, p, hb, hd, hm, hl, hx, h1, h2 => by
    unfold symbolAddress
    have hq := hb q List.mem_cons_self
    have hsum : (q.vaddr + q.memsz).toNat = q.vaddr.toNat + q.memsz.toNat := by
      rw [BitVec.toNat_add]; omega
    have hrec : p ∈ qs → (symbolAddress value qs).toNat = p.off.toNat + (value.toNat - p.vaddr.toNat) := fun hm' =>
      symbolAddress_code value qs p (fun r hr => hb r (List.mem_cons_of_mem _ hr)) (fun r hr => hd r (List.mem_cons_of_mem _ hr)) hm' hl hx h1 h2
    by_cases hskip : (!q.load || !q.exec) = true
    · rw [if_pos hskip]
      apply hrec
      rcases List.mem_cons.1 hm with he | he
      · subst he; rw [hl, hx] at hskip; cases hskip
      · exact he
    · rw [if_neg hskip]
      have hql : q.load = true := by
        cases h : q.load <;> simp_all
      by_cases hin : q.vaddr.toNat ≤ value.toNat ∧ value.toNat < (q.vaddr + q.memsz).toNat
      · rw [if_pos hin]
        have he := hd q List.mem_cons_self hql hin.1 (by rw [← hsum]; exact hin.2)
        subst he
        rw [BitVec.toNat_add, BitVec.toNat_sub_of_le (show q.vaddr ≤ value from hin.1)]
        omega
      · rw [if_neg hin]
        apply hrec
        rcases List.mem_cons.1 hm with he | he
        · subst he
          exact absurd ⟨h1, by rw [hsum]; exact h2⟩ hin
        · exact he

/-- The address of an undefined function is 0. -/
theorem symbolAddress_undef : ∀ (segs : List Segment), (∀ p ∈ segs, p.vaddr = 0#64 → p.off = 0#64) → symbolAddress 0#64 segs = 0#64
  | [], _ => rfl
  | q :: qs, h => by
    unfold symbolAddress
    have hrec := symbolAddress_undef qs (fun p hp => h p (List.mem_cons_of_mem _ hp))
    by_cases hskip : (!q.load || !q.exec) = true
    · rw [if_pos hskip]; exact hrec
    · rw [if_neg hskip]
      by_cases hin : q.vaddr.toNat ≤ (0#64).toNat ∧ (0#64).toNat < (q.vaddr + q.memsz).toNat
      · rw [if_pos hin]
        have hz : q.vaddr = 0#64 := BitVec.eq_of_toNat_eq (by have := hin.1; simp only [BitVec.toNat_ofNat] at this ⊢; omega)
        rw [hz, h q List.mem_cons_self hz]
        rfl
      · rw [if_neg hin]; exact hrec

/-- Executables after any calls, if the file can be read and is always the same. -/
inductive Reach (f : ElfFile) : Executable → Prop where
  | open : Reach f openExecutable
  | address {ex} (n a o) : Reach f ex → Reach f (address (.ok f) ex n a o).2
  | symbol {ex a r ex'} : Reach f ex → SymbolOf (.ok f) ex a (r, ex') → Reach f ex'
  | addresses {ex} (s a o) : Reach f ex → Reach f (addresses (.ok f) ex s a o).2

/-- What the cache is after loading. -/
def cacheOf (f : ElfFile) : Cache := load f.segs f.syms (fun _ => none)

/-- Not loaded yet, or loaded. -/
def Inv (f : ElfFile) (ex : Executable) : Prop := ex = openExecutable ∨ ex = ⟨true, cacheOf f⟩

theorem lazy_inv {f : ElfFile} (hx : f.executable = true) {ex : Executable} (h : Inv f ex) :
    lazyLoadSymbols (.ok f) ex = (.ok (), ⟨true, cacheOf f⟩) := by
  rcases h with rfl | rfl
  · unfold lazyLoadSymbols openExecutable
    simp only [Bool.false_eq_true, if_false, hx, Bool.not_true]
    rfl
  · rfl

theorem address_inv {f : ElfFile} (hx : f.executable = true) {ex : Executable} (h : Inv f ex) (n : Bytes) (a o : BitVec 64) :
    Inv f (address (.ok f) ex n a o).2 := by
  unfold address
  split
  · exact h
  · rw [lazy_inv hx h]
    simp only
    repeat' split
    all_goals exact Or.inr rfl

theorem addressesLoop_inv {f : ElfFile} (hx : f.executable = true) (s : Option (List Bytes)) (a o : Option (List (BitVec 64))) :
    ∀ (k i : Nat) (ex : Executable), Inv f ex → Inv f (addressesLoop (.ok f) s a o k i ex).2
  | 0, i, ex, h => h
  | k + 1, i, ex, h => by
    unfold addressesLoop
    split
    · rename_i e ex' hh
      have := address_inv hx h (nth [] s i) (nth 0#64 a i) (nth 0#64 o i)
      rw [hh] at this
      exact this
    · rename_i e ex' hh
      have := address_inv hx h (nth [] s i) (nth 0#64 a i) (nth 0#64 o i)
      rw [hh] at this
      have ih := addressesLoop_inv hx s a o k (i + 1) ex' this
      split
      · rename_i h2; rw [h2] at ih; exact ih
      · rename_i h2; rw [h2] at ih; exact ih

theorem reach_inv {f : ElfFile} (hx : f.executable = true) {ex : Executable} (h : Reach f ex) : Inv f ex := by
  induction h with
  | «open» => exact Or.inl rfl
  | address n a o _ ih => exact address_inv hx ih n a o
  | symbol _ hs ih =>
    cases hs with
    | fail h => rw [lazy_inv hx ih] at h; cases h
    | found h _ _ => rw [lazy_inv hx ih] at h; cases h; exact Or.inr rfl
    | missing h _ => rw [lazy_inv hx ih] at h; cases h; exact Or.inr rfl
  | addresses s a o _ ih =>
    unfold Uprobe.addresses
    simp only
    repeat' split
    all_goals first | exact ih | exact addressesLoop_inv hx _ _ _ _ _ _ ih

/-- Addresses do not depend on earlier calls. -/
theorem address_reach {f : ElfFile} (hx : f.executable = true) {ex : Executable} (h : Inv f ex) (n : Bytes) (a o : BitVec 64) :
    (address (.ok f) ex n a o).1 = (address (.ok f) openExecutable n a o).1 := by
  unfold address
  split
  · rfl
  · rw [lazy_inv hx h, lazy_inv hx (Or.inl rfl)]

theorem fileOffset_unique {f : ElfFile} (hs : Sane f) {va a b : Nat} (ha : FileOffset f.segs va a) (hb : FileOffset f.segs va b) : a = b := by
  obtain ⟨p, hp, p1, p2, p3, rfl⟩ := ha
  obtain ⟨q, hq, q1, q2, q3, rfl⟩ := hb
  have b1 := hs.bounds p hp
  have b2 := hs.bounds q hq
  have := hs.disjoint p hp q hq p1 q1 va p2 (by omega) q2 (by omega)
  rw [this]

/-- What the cache says of a function. -/
theorem cache_code {f : ElfFile} (hs : Sane f) {s : ElfSym} (hm : s ∈ f.syms) (hf : s.isFunc = true) :
    ∃ y, cacheOf f s.name = some y ∧ y.size = s.size ∧
      (s.value = 0#64 → y.addr = 0#64) ∧
      (s.value ≠ 0#64 → y.addr ≠ 0#64 ∧ y.addr.toNat + y.size.toNat < 2 ^ 64 ∧
        ∀ k, k < s.size.toNat → FileOffset f.segs (s.value.toNat + k) (y.addr.toNat + k)) := by
  refine ⟨_, (load_spec f.segs f.syms (fun _ => none) s.name hs.unique).1 s hm hf rfl, rfl, ?_, ?_⟩
  · intro hz
    simp only [hz]
    exact symbolAddress_undef f.segs hs.zero
  · intro hv
    obtain ⟨p, hp, c1, c2, c3, c4, c5, c6⟩ := hs.code s hm hf hv
    have hb := hs.bounds p hp
    have ha := symbolAddress_code s.value f.segs p hs.bounds
      (fun q hq hl h1 h2 => hs.disjoint q hq p hp hl c1 _ h1 h2 c3 (by omega)) hp c1 c2 c3 (by omega)
    simp only
    refine ⟨?_, ?_, ?_⟩
    · intro h0
      rw [h0] at ha
      simp only [BitVec.toNat_ofNat] at ha
      omega
    · rw [ha]; omega
    · intro k hk
      refine ⟨p, hp, c1, by omega, by omega, ?_⟩
      rw [ha]
      omega

theorem cache_none {f : ElfFile} (hs : Sane f) {n : Bytes} {y : Symbol} (h : cacheOf f n = some y) : ∃ s ∈ f.syms, s.isFunc = true ∧ s.name = n := by
  apply Classical.byContradiction
  intro hne
  have := (load_spec f.segs f.syms (fun _ => none) n hs.unique).2 (fun s hm hf hn => hne ⟨s, hm, hf, hn⟩)
  unfold cacheOf at h
  rw [this] at h
  cases h

/-- **C69.** After any earlier calls, attaching to `name` + `offset` succeeds exactly if `name` is a function that is defined in the file and `offset`
is within it, and the probe is placed at the offset of that byte in the file.

Partial: the file can be read and does not change. If reading it fails once, later calls are wrong: `failed_load_forgotten`. -/
theorem uprobe_address_partial {f : ElfFile} (hs : Sane f) {ex : Executable} (hr : Reach f ex) (name : Bytes) (offset a : BitVec 64) :
    (address (.ok f) ex name 0#64 offset).1 = .ok a ↔ At f name offset.toNat a.toNat := by
  unfold address
  rw [if_neg (by decide), lazy_inv hs.executable (reach_inv hs.executable hr)]
  simp only
  constructor
  · intro h
    cases hc : cacheOf f name with
    | none => rw [hc] at h; cases h
    | some y =>
      rw [hc] at h
      simp only at h
      obtain ⟨s, hm, hf, hn⟩ := cache_none hs hc
      obtain ⟨y', hy, hsz, hz, hv⟩ := cache_code hs hm hf
      rw [hn, hc] at hy
      cases hy
      by_cases h0 : y.addr = 0#64
      · rw [if_pos h0] at h; cases h
      · rw [if_neg h0] at h
        by_cases ho : y.size.toNat ≤ offset.toNat
        · rw [if_pos ho] at h; cases h
        · rw [if_neg ho] at h
          cases h
          have hval : s.value ≠ 0#64 := fun hh => h0 (hz hh)
          obtain ⟨_, v2, v3⟩ := hv hval
          rw [hsz] at ho
          refine ⟨s, hm, hf, hn, hval, by omega, ?_⟩
          rw [show (y.addr + offset).toNat = y.addr.toNat + offset.toNat from by rw [BitVec.toNat_add]; rw [hsz] at v2; omega]
          exact v3 _ (by omega)
  · rintro ⟨s, hm, hf, rfl, hval, hk, hfo⟩
    obtain ⟨y, hy, hsz, _, hv⟩ := cache_code hs hm hf
    obtain ⟨v1, v2, v3⟩ := hv hval
    rw [hy]
    simp only
    rw [if_neg v1, if_neg (by rw [hsz]; omega)]
    show Except.ok (y.addr + offset) = Except.ok a
    congr 1
    apply BitVec.eq_of_toNat_eq
    have := fileOffset_unique hs hfo (v3 _ hk)
    rw [BitVec.toNat_add]
    rw [hsz] at v2
    omega

/-- **C69.** With `Address` the probe is placed there, plus `Offset`, without looking at the file. -/
theorem uprobe_explicit (file : Except Err ElfFile) (ex : Executable) (name : Bytes) (a o : BitVec 64) (ha : a ≠ 0#64) :
    address file ex name a o = (.ok (a + o), ex) := by
  unfold address
  rw [if_pos]
  have : a.toNat ≠ 0 := fun h => ha (BitVec.eq_of_toNat_eq (by rw [h]; rfl))
  omega

/-- **C69.** `Executable.Symbol` is the inverse: it gives a function and an offset exactly if that byte of the function is at the offset in the file. -/
theorem symbol_exact_partial {f : ElfFile} (hs : Sane f) {ex : Executable} (hr : Reach f ex) (a : BitVec 64) (name : Bytes) (k : BitVec 64) :
    (∃ ex', SymbolOf (.ok f) ex a (.ok (name, k), ex')) ↔ At f name k.toNat a.toNat := by
  have hl := lazy_inv hs.executable (reach_inv hs.executable hr)
  constructor
  · rintro ⟨ex', h⟩
    cases h with
    | @found _ _ y h1 h2 h3 =>
      rw [hl] at h1
      cases h1
      simp only at h2
      obtain ⟨s, hm, hf, hn⟩ := cache_none hs h2
      obtain ⟨y', hy, hsz, hz, hv⟩ := cache_code hs hm hf
      rw [hn, h2] at hy
      cases hy
      unfold Symbol.contains at h3
      simp only [Bool.and_eq_true, decide_eq_true_eq] at h3
      by_cases hval : s.value = 0#64
      · exfalso
        have h4 := hs.undef s hm hf hval
        rw [hsz, h4, hz hval] at h3
        simp at h3
      · obtain ⟨v1, v2, v3⟩ := hv hval
        rw [BitVec.toNat_add, Nat.mod_eq_of_lt v2] at h3
        have hsub : (a - y.addr).toNat = a.toNat - y.addr.toNat := BitVec.toNat_sub_of_le (show y.addr ≤ a from h3.1)
        rw [hsub]
        rw [hsz] at h3
        refine ⟨s, hm, hf, hn, hval, by omega, ?_⟩
        have := v3 (a.toNat - y.addr.toNat) (by omega)
        rw [show y.addr.toNat + (a.toNat - y.addr.toNat) = a.toNat from by omega] at this
        exact this
  · rintro ⟨s, hm, hf, rfl, hval, hk, hfo⟩
    obtain ⟨y, hy, hsz, _, hv⟩ := cache_code hs hm hf
    obtain ⟨v1, v2, v3⟩ := hv hval
    have ha := fileOffset_unique hs hfo (v3 _ hk)
    have hk' : k = a - y.addr := by
      apply BitVec.eq_of_toNat_eq
      rw [BitVec.toNat_sub_of_le (show y.addr ≤ a from by show y.addr.toNat ≤ a.toNat; omega)]
      omega
    rw [hk']
    refine ⟨_, .found hl hy ?_⟩
    unfold Symbol.contains
    simp only [Bool.and_eq_true, decide_eq_true_eq]
    rw [BitVec.toNat_add, Nat.mod_eq_of_lt v2, hsz]
    omega

/-- **C69.** It fails exactly if there is no function at that offset. -/
theorem symbol_missing_partial {f : ElfFile} (hs : Sane f) {ex : Executable} (hr : Reach f ex) (a : BitVec 64) (e : Err) (ex' : Executable) :
    SymbolOf (.ok f) ex a (.error e, ex') → e = .noSymbol ∧ ∀ name k, ¬ At f name k a.toNat := by
  have hl := lazy_inv hs.executable (reach_inv hs.executable hr)
  intro h
  cases h with
  | fail h => rw [hl] at h; cases h
  | missing h1 h2 =>
    rw [hl] at h1
    cases h1
    refine ⟨rfl, ?_⟩
    rintro name k ⟨s, hm, hf, rfl, hval, hk, hfo⟩
    obtain ⟨y, hy, hsz, _, hv⟩ := cache_code hs hm hf
    obtain ⟨v1, v2, v3⟩ := hv hval
    have ha := fileOffset_unique hs hfo (v3 _ hk)
    have := h2 s.name y hy
    unfold Symbol.contains at this
    rw [BitVec.toNat_add, Nat.mod_eq_of_lt v2, hsz] at this
    simp only [Bool.and_eq_false_iff, decide_eq_false_iff_not] at this
    omega

theorem addressesLoop_spec {f : ElfFile} (hx : f.executable = true) (s : Option (List Bytes)) (a o : Option (List (BitVec 64))) :
    ∀ (k i : Nat) (ex : Executable) (l : List (BitVec 64)), Inv f ex → (addressesLoop (.ok f) s a o k i ex).1 = .ok l →
      l.length = k ∧ ∀ j (hj : j < l.length), (address (.ok f) openExecutable (nth [] s (i + j)) (nth 0#64 a (i + j)) (nth 0#64 o (i + j))).1 = .ok l[j]
  | 0, i, ex, l, h, hl => by
    simp only [addressesLoop, Except.ok.injEq] at hl
    subst hl
    exact ⟨rfl, fun j hj => absurd hj (by simp)⟩
  | k + 1, i, ex, l, h, hl => by
    unfold addressesLoop at hl
    simp only at hl
    have hi := address_inv hx h (nth [] s i) (nth 0#64 a i) (nth 0#64 o i)
    have hr := address_reach hx h (nth [] s i) (nth 0#64 a i) (nth 0#64 o i)
    split at hl
    · cases hl
    · rename_i b ex' hh
      rw [hh] at hi hr
      split at hl
      · cases hl
      · rename_i bs ex'' h2
        simp only [Except.ok.injEq] at hl
        subst hl
        obtain ⟨i1, i2⟩ := addressesLoop_spec hx s a o k (i + 1) ex' bs hi (by rw [h2])
        refine ⟨by simp [i1], ?_⟩
        intro j hj
        cases j with
        | zero => exact hr.symm
        | succ j =>
          have := i2 j (by simpa using hj)
          rw [show i + 1 + j = i + (j + 1) from by omega] at this
          simpa using this

/-- **C69.** `UprobeMulti` places one probe per symbol (or address), each where `Uprobe` with the symbol, address and offset of the same index would. -/
theorem uprobeMulti_addresses_partial {f : ElfFile} (hs : Sane f) {ex : Executable} (hr : Reach f ex) (s : Option (List Bytes)) (a o : Option (List (BitVec 64)))
    (l : List (BitVec 64)) (h : (addresses (.ok f) ex s a o).1 = .ok l) :
    l.length ≠ 0 ∧ (∀ x, s = some x → x.length = l.length) ∧ (∀ x, a = some x → x.length = l.length) ∧ (∀ x, o = some x → x.length = l.length) ∧
      ∀ j (hj : j < l.length), (address (.ok f) openExecutable (nth [] s j) (nth 0#64 a j) (nth 0#64 o j)).1 = .ok l[j] := by
  unfold addresses at h
  generalize (if lenOf s = 0 then lenOf a else lenOf s) = n at h
  simp only at h
  split at h
  · cases h
  · rename_i h0
    split at h
    · cases h
    · rename_i h1
      split at h
      · cases h
      · rename_i h2
        split at h
        · cases h
        · rename_i h3
          obtain ⟨i1, i2⟩ := addressesLoop_spec hs.executable s a o _ _ _ _ (reach_inv hs.executable hr) h
          refine ⟨by rw [i1]; exact h0, ?_, ?_, ?_, ?_⟩
          · rintro x rfl
            rw [i1]
            simp only [Option.isSome_some, true_and] at h1
            exact Decidable.not_not.1 h1
          · rintro x rfl
            rw [i1]
            simp only [Option.isSome_some, true_and] at h2
            exact Decidable.not_not.1 h2
          · rintro x rfl
            rw [i1]
            simp only [Option.isSome_some, true_and] at h3
            exact Decidable.not_not.1 h3
          · intro j hj
            have := i2 j hj
            rwa [Nat.zero_add] at this

/-! ## the code is wrong -/

/-- After the file could not be read once, every symbol is reported as missing, although the file is fine by now. -/
theorem failed_load_forgotten (f : ElfFile) (e : Err) (n m : Bytes) (o o' : BitVec 64) :
    (address (.error e) openExecutable n 0#64 o).1 = .error e ∧
      (address (.ok f) (address (.error e) openExecutable n 0#64 o).2 m 0#64 o').1 = .error .noSymbol := by
  constructor <;> rfl

/-- Functions without a size, common in assembly, cannot be probed by name at all. -/
theorem unsized_function_rejected {f : ElfFile} (hs : Sane f) {ex : Executable} (hr : Reach f ex) (s : ElfSym) (hm : s ∈ f.syms) (hf : s.isFunc = true)
    (hz : s.size = 0#64) (o a : BitVec 64) : (address (.ok f) ex s.name 0#64 o).1 ≠ .ok a := by
  intro h
  obtain ⟨t, ht, htf, htn, _, hk, _⟩ := (uprobe_address_partial hs hr s.name o a).1 h
  rw [hs.unique t ht s hm htf hf htn, hz] at hk
  simp at hk

/-! ## example -/

namespace Ex

/-- A program with headers at 0 and code at 0x1000, which is at 0x2000 in memory. -/
def f : ElfFile := ⟨true, [⟨[1], true, 0x2010#64, 16#64⟩, ⟨[2], true, 0#64, 0#64⟩, ⟨[3], false, 0x5000#64, 8#64⟩],
  [⟨true, false, 0#64, 0#64, 0x500#64, 0x500#64⟩, ⟨true, true, 0x2000#64, 0x1000#64, 0x800#64, 0x800#64⟩]⟩

theorem sane : Sane f where
  executable := rfl
  bounds := by decide
  disjoint := by
    intro p hp q hq _ _ va h1 h2 h3 h4
    simp only [f, List.mem_cons, List.not_mem_nil, or_false] at hp hq
    rcases hp with rfl | rfl <;> rcases hq with rfl | rfl <;> first | rfl | (exfalso; simp at h1 h2 h3 h4; omega)
  zero := by decide
  code := by
    intro s hm hf hv
    simp only [f, List.mem_cons, List.not_mem_nil, or_false] at hm
    rcases hm with rfl | rfl | rfl
    · exact ⟨⟨true, true, 0x2000#64, 0x1000#64, 0x800#64, 0x800#64⟩, by decide⟩
    · exact absurd rfl hv
    · cases hf
  undef := by decide
  unique := by decide

/-- 4 bytes into the function is at 0x1014. -/
example : (address (.ok f) openExecutable [1] 0#64 4#64).1 = .ok 0x1014#64 := by decide
example : At f [1] 4 0x1014 := (uprobe_address_partial sane .open [1] 4#64 0x1014#64).1 (by decide)
example : (addresses (.ok f) openExecutable (some [[1], [1]]) none (some [1#64, 2#64])).1 = .ok [0x1011#64, 0x1012#64] := by decide
example : (address (.ok f) openExecutable [2] 0#64 0#64).1 = .error .libraryCall := by decide

end Ex

end Ebpf.Uprobe
