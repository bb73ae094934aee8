import Verif.Model.KernelInfo
import Verif.Spec.KernelInfo
import Verif.Lemmas.Bits
/-! # C97: the version of the kernel and the number of CPUs -/
namespace Ebpf.KernelInfo
open Ebpf.KernelInfoSpec

/-! ## The address of the vDSO -/

/-- **C97.** The address is that of the first AT_SYSINFO_EHDR before the end of the vector. -/
theorem vdso_address (av : List (Nat × Nat)) (a : Nat) :
    vdsoAddress av = .ok a ↔ a ≠ 0 ∧ ∃ pre post, av = pre ++ (33, a) :: post ∧ ∀ p ∈ pre, p.1 ≠ 33 ∧ p.1 ≠ 0 := by
  induction av with
  | nil => simp [vdsoAddress]
  | cons q r ih =>
    obtain ⟨t, v⟩ := q
    unfold vdsoAddress
    by_cases h33 : t = 33
    · subst h33
      rw [if_pos rfl]
      constructor
      · intro h
        split at h
        · rename_i hv
          cases h
          exact ⟨hv, [], r, rfl, by simp⟩
        · cases h
      · rintro ⟨h0, pre, post, e, hp⟩
        cases pre with
        | nil => simp at e; obtain ⟨rfl, rfl⟩ := e; rw [if_pos h0]
        | cons x pre => simp at e; have := (hp x (by simp)).1; rw [← e.1] at this; exact absurd rfl this
    · rw [if_neg h33]
      by_cases h0 : t = 0
      · subst h0
        rw [if_pos rfl]
        constructor
        · intro h; cases h
        · rintro ⟨_, pre, post, e, hp⟩
          cases pre with
          | nil => simp at e
          | cons x pre => simp at e; have := (hp x (by simp)).2; rw [← e.1] at this; exact absurd rfl this
      · rw [if_neg h0, ih]
        constructor
        · rintro ⟨ha, pre, post, rfl, hp⟩
          exact ⟨ha, (t, v) :: pre, post, rfl, by simp only [List.forall_mem_cons]; exact ⟨⟨h33, h0⟩, hp⟩⟩
        · rintro ⟨ha, pre, post, e, hp⟩
          cases pre with
          | nil => simp at e; exact absurd e.1.1 h33
          | cons x pre =>
            simp at e
            exact ⟨ha, pre, post, e.2, fun p hp' => hp p (by simp [hp'])⟩

/-! ## Notes -/

theorem align4_eq (n : Nat) (h : n + 3 < 2 ^ 31) : align4 n = ((n + 3) / 4 * 4 : Nat) := by
  unfold align4
  rw [if_pos (by omega), Int.tdiv_eq_ediv_of_nonneg (by omega)]
  omega

theorem pad4_length (b : Bytes) : (pad4 b).length = (b.length + 3) / 4 * 4 := by
  unfold pad4
  rw [List.length_append, List.length_replicate]
  omega

theorem pad4_take (b r : Bytes) : (pad4 b ++ r).take b.length = b := by
  unfold pad4
  rw [List.append_assoc, List.take_left]

theorem u32_put32 (bo : ByteOrder) (v : BitVec 32) (pre r : Bytes) : u32 bo (pre ++ bo.put32 v ++ r) pre.length = v := by
  obtain ⟨a, b, c, d, e, hg⟩ := get32_put32 bo v
  unfold u32
  rw [e]
  simpa using hg

theorem toInt_ofNat32 (n : Nat) (h : n < 2 ^ 31) : (BitVec.ofNat 32 n).toInt = n := by
  rw [BitVec.toInt_eq_toNat_cond, BitVec.toNat_ofNat]
  omega

theorem readName_pad (name r : Bytes) (h : name.length + 3 < 2 ^ 31) : readName name.length (pad4 name ++ r) = .read (upToNul name) r := by
  unfold readName
  by_cases h0 : name.length = 0
  · have : name = [] := List.length_eq_zero_iff.1 h0
    subst this
    simp [pad4, upToNul]
  · rw [if_pos (by omega), align4_eq _ h]
    dsimp only
    rw [if_neg (by omega), if_neg (by rw [List.length_append, pad4_length]; omega)]
    rw [Int.toNat_natCast, Int.toNat_natCast, pad4_take, ← pad4_length, List.drop_left]

theorem skipDesc_pad (desc r : Bytes) (h : desc.length + 3 < 2 ^ 31) : skipDesc desc.length (pad4 desc ++ r) = some r := by
  unfold skipDesc
  rw [align4_eq _ h]
  dsimp only
  rw [if_neg (by omega), if_neg (by rw [List.length_append, pad4_length]; omega)]
  rw [Int.toNat_natCast, ← pad4_length, List.drop_left]

theorem put32_len (bo : ByteOrder) (v : BitVec 32) : (bo.put32 v).length = 4 := by cases bo <;> rfl

theorem upToNul_linux (name : Bytes) : upToNul name = linuxName ↔ ∃ r, name = [0x4c, 0x69, 0x6e, 0x75, 0x78] ++ r ∧ (r = [] ∨ ∃ t, r = 0 :: t) := by
  unfold upToNul
  constructor
  · intro h
    have e := List.takeWhile_append_dropWhile (p := fun x : Byte => decide (x ≠ 0)) (l := name)
    rw [h] at e
    refine ⟨_, e.symm, ?_⟩
    cases hd : name.dropWhile (fun x : Byte => decide (x ≠ 0)) with
    | nil => exact .inl rfl
    | cons c t =>
      right
      have := List.head?_dropWhile_not (fun x : Byte => decide (x ≠ 0)) name
      rw [hd] at this
      simp at this
      exact ⟨t, by rw [this]; rfl⟩
  · rintro ⟨r, rfl, rfl | ⟨t, rfl⟩⟩ <;> simp [linuxName]

/-- What reading one note does. -/
theorem scan_note (bo : ByteOrder) (fuel : Nat) (n : Note) (h : n.Fits) (r : Bytes) :
    (∀ v, n.IsVersion v bo → scanNotes bo (fuel + 1) (n.bytes bo ++ r) = .version v) ∧
    ((¬ ∃ v, n.IsVersion v bo) → scanNotes bo (fuel + 1) (n.bytes bo ++ r) = scanNotes bo fuel r) := by
  obtain ⟨hn, hd⟩ := h
  have e0 : u32 bo (n.bytes bo ++ r) 0 = BitVec.ofNat 32 n.name.length := by
    have := u32_put32 bo (BitVec.ofNat 32 n.name.length) [] (bo.put32 (BitVec.ofNat 32 n.desc.length) ++ bo.put32 n.typ ++ pad4 n.name ++ pad4 n.desc ++ r)
    simpa [Note.bytes] using this
  have e4 : u32 bo (n.bytes bo ++ r) 4 = BitVec.ofNat 32 n.desc.length := by
    have := u32_put32 bo (BitVec.ofNat 32 n.desc.length) (bo.put32 (BitVec.ofNat 32 n.name.length)) (bo.put32 n.typ ++ pad4 n.name ++ pad4 n.desc ++ r)
    rw [put32_len] at this
    simpa [Note.bytes] using this
  have e8 : u32 bo (n.bytes bo ++ r) 8 = n.typ := by
    have := u32_put32 bo n.typ (bo.put32 (BitVec.ofNat 32 n.name.length) ++ bo.put32 (BitVec.ofNat 32 n.desc.length)) (pad4 n.name ++ pad4 n.desc ++ r)
    rw [List.length_append, put32_len, put32_len] at this
    simpa [Note.bytes] using this
  have ed : (n.bytes bo ++ r).drop 12 = pad4 n.name ++ (pad4 n.desc ++ r) := by
    have : n.bytes bo ++ r = (bo.put32 (BitVec.ofNat 32 n.name.length) ++ bo.put32 (BitVec.ofNat 32 n.desc.length) ++ bo.put32 n.typ) ++ (pad4 n.name ++ (pad4 n.desc ++ r)) := by
      simp [Note.bytes]
    rw [this, List.drop_left' (by simp [put32_len])]
  have hlen : 12 ≤ (n.bytes bo ++ r).length := by simp [Note.bytes, put32_len]; omega
  have main : scanNotes bo (fuel + 1) (n.bytes bo ++ r) =
      if 0 < (n.desc.length : Int) then
        if upToNul n.name = linuxName ∧ (n.desc.length : Int) = 4 ∧ n.typ.toInt = 0 then
          if (pad4 n.desc ++ r).length < 4 then .error else .version (u32 bo (pad4 n.desc ++ r) 0)
        else scanNotes bo fuel r
      else scanNotes bo fuel (pad4 n.desc ++ r) := by
    rw [scanNotes, if_neg (by omega), if_neg (by omega), e0, e4, e8, ed, toInt_ofNat32 _ (by omega), toInt_ofNat32 _ (by omega), readName_pad _ _ hn]
    dsimp only
    rw [skipDesc_pad _ _ hd]
  have hz : n.typ.toInt = 0 ↔ n.typ = 0 := by
    constructor
    · intro h
      apply BitVec.eq_of_toInt_eq; rw [h]; rfl
    · intro h; rw [h]; rfl
  rw [main]
  constructor
  · rintro v ⟨h1, h2, h3⟩
    have hl : n.desc.length = 4 := by rw [h3, put32_len]
    rw [if_pos (by omega), if_pos ⟨(upToNul_linux _).2 h1, by omega, hz.2 h2⟩, if_neg (by simp [pad4, hl])]
    have := u32_put32 bo v [] r
    simp only [List.nil_append, List.length_nil] at this
    congr 1
    have e : pad4 n.desc = bo.put32 v := by unfold pad4; rw [hl, h3]; simp
    rw [e]; exact this
  · intro hno
    split
    · rw [if_neg]
      rintro ⟨h1, h2, h3⟩
      refine hno ?_
      have hl : n.desc.length = 4 := by omega
      match hm : n.desc, hl with
      | [a, b, c, d], _ => exact ⟨bo.get32 a b c d, (upToNul_linux _).1 h1, hz.1 h3, by rw [hm]; exact (put32_get32 bo a b c d).symm⟩
    · have : n.desc = [] := List.length_eq_zero_iff.1 (by omega)
      rw [this]; rfl

/-- All notes of a section. -/
theorem scan_section (bo : ByteOrder) : ∀ (ns : List Note) (fuel : Nat), (∀ n ∈ ns, n.Fits) → ns.length < fuel → ∀ r : Bytes,
    ((∀ n ∈ ns, ¬ ∃ v, n.IsVersion v bo) → scanNotes bo fuel (ns.flatMap (Note.bytes bo) ++ r) = scanNotes bo (fuel - ns.length) r) ∧
    (∀ pre n post v, ns = pre ++ n :: post → (∀ m ∈ pre, ¬ ∃ v, m.IsVersion v bo) → n.IsVersion v bo → scanNotes bo fuel (ns.flatMap (Note.bytes bo) ++ r) = .version v)
  | [], fuel, _, _, r => by
    refine ⟨fun _ => by simp, fun pre n post v e => by simp at e⟩
  | m :: ns, fuel, hf, hl, r => by
    obtain ⟨f, rfl⟩ : ∃ f, fuel = f + 1 := ⟨fuel - 1, by simp at hl; omega⟩
    have h1 := scan_note bo f m (hf m (by simp)) (ns.flatMap (Note.bytes bo) ++ r)
    have ih := scan_section bo ns f (fun n hn => hf n (by simp [hn])) (by simp at hl; omega) r
    rw [List.flatMap_cons, List.append_assoc]
    refine ⟨fun hno => ?_, fun pre n post v e hp hv => ?_⟩
    · rw [h1.2 (hno m (by simp)), ih.1 (fun n hn => hno n (by simp [hn]))]
      simp
    · cases pre with
      | nil => simp at e; obtain ⟨rfl, rfl⟩ := e; exact h1.1 v hv
      | cons x pre =>
        simp at e
        obtain ⟨rfl, rfl⟩ := e
        rw [h1.2 (hp m (by simp))]
        exact ih.2 pre n post v rfl (fun m hm => hp m (by simp [hm])) hv

theorem bytes_length (bo : ByteOrder) (ns : List Note) : ns.length ≤ (ns.flatMap (Note.bytes bo)).length := by
  induction ns with
  | nil => simp
  | cons n r ih =>
    simp only [List.flatMap_cons, List.length_append, List.length_cons]
    have : 1 ≤ (n.bytes bo).length := by simp [Note.bytes, put32_len]; omega
    omega

theorem scan_section_none (bo : ByteOrder) (ns : List Note) (hf : ∀ n ∈ ns, n.Fits) (hno : ∀ n ∈ ns, ¬ ∃ v, n.IsVersion v bo) :
    scanNotes bo ((ns.flatMap (Note.bytes bo)).length + 1) (ns.flatMap (Note.bytes bo)) = .none := by
  have hl := bytes_length bo ns
  have := (scan_section bo ns ((ns.flatMap (Note.bytes bo)).length + 1) hf (by omega) []).1 hno
  rw [List.append_nil] at this
  rw [this]
  obtain ⟨f, e⟩ : ∃ f, (ns.flatMap (Note.bytes bo)).length + 1 - ns.length = f + 1 := ⟨(ns.flatMap (Note.bytes bo)).length - ns.length, by omega⟩
  rw [e]; simp [scanNotes]

/-- **C97.** The version code is that of the first note of Linux, wherever it is among the notes and sections, in either byte order. -/
theorem version_code (bo : ByteOrder) (before : List (List Note)) (pre : List Note) (n : Note) (post : List Note) (after : List Bytes) (v : BitVec 32)
    (hb : ∀ s ∈ before, ∀ n ∈ s, n.Fits ∧ ¬ ∃ v, n.IsVersion v bo) (hp : ∀ m ∈ pre, m.Fits ∧ ¬ ∃ v, m.IsVersion v bo) (hpost : ∀ m ∈ post, m.Fits) (hf : n.Fits) (hv : n.IsVersion v bo) :
    linuxVersionCode bo (before.map (·.flatMap (Note.bytes bo)) ++ (pre ++ n :: post).flatMap (Note.bytes bo) :: after) = some (.ok v) := by
  unfold linuxVersionCode
  rw [if_neg (by simp)]
  have : scanSections bo (before.map (·.flatMap (Note.bytes bo)) ++ (pre ++ n :: post).flatMap (Note.bytes bo) :: after) = .version v := by
    induction before with
    | nil =>
      simp only [List.map_nil, List.nil_append, scanSections]
      have hl := bytes_length bo (pre ++ n :: post)
      have := (scan_section bo (pre ++ n :: post) (((pre ++ n :: post).flatMap (Note.bytes bo)).length + 1) (by
        intro m hm
        rcases List.mem_append.1 hm with hm | hm
        · exact (hp m hm).1
        · rcases List.mem_cons.1 hm with rfl | hm
          · exact hf
          · exact hpost m hm) (by omega) []).2 pre n post v rfl (fun m hm => (hp m hm).2) hv
      rw [List.append_nil] at this
      rw [this]
    | cons s r ih =>
      simp only [List.map_cons, List.cons_append, scanSections]
      rw [scan_section_none bo s (fun n hn => (hb s (by simp) n hn).1) (fun n hn => (hb s (by simp) n hn).2)]
      exact ih (fun s hs => hb s (by simp [hs]))
  rw [this]

/-- **C97.** Without such a note there is an error, not a wrong version. -/
theorem version_code_missing (bo : ByteOrder) (sections : List (List Note)) (hf : ∀ s ∈ sections, ∀ n ∈ s, n.Fits ∧ ¬ ∃ v, n.IsVersion v bo) :
    ∃ e, linuxVersionCode bo (sections.map (·.flatMap (Note.bytes bo))) = some (.error e) := by
  unfold linuxVersionCode
  split
  · exact ⟨_, rfl⟩
  · have : scanSections bo (sections.map (·.flatMap (Note.bytes bo))) = .none := by
      induction sections with
      | nil => rfl
      | cons s r ih =>
        simp only [List.map_cons, scanSections]
        rw [scan_section_none bo s (fun n hn => (hf s (by simp) n hn).1) (fun n hn => (hf s (by simp) n hn).2)]
        by_cases hr : r = []
        · subst hr; rfl
        · exact ih (fun s hs => hf s (by simp [hs])) (by simp [hr])
    rw [this]
    exact ⟨_, rfl⟩

theorem scan_not_stuck (bo : ByteOrder) : ∀ (fuel : Nat) (b : Bytes), b.length < fuel → scanNotes bo fuel b ≠ .stuck
  | 0, b, h => by omega
  | fuel + 1, b, h => by
    rw [scanNotes]
    split
    · simp
    · split
      · simp
      · split
        · simp
        · simp
        · rename_i h1 h2 name rest hr
          have hlr : rest.length ≤ (b.drop 12).length := by
            unfold readName at hr
            split at hr
            · dsimp only at hr
              split at hr
              · cases hr
              · split at hr
                · cases hr
                · cases hr; rw [List.length_drop]; omega
            · cases hr; exact Nat.le_refl _
          rw [List.length_drop] at hlr
          split
          · split
            · split <;> simp
            · split
              · simp
              · rename_i r hs
                refine scan_not_stuck bo fuel r ?_
                have : r.length ≤ rest.length := by
                  unfold skipDesc at hs
                  dsimp only at hs
                  split at hs
                  · cases hs; exact Nat.le_refl _
                  · split at hs
                    · cases hs
                    · cases hs; rw [List.length_drop]; omega
                omega
          · exact scan_not_stuck bo fuel rest (by omega)

/-- **C97.** Reading notes ends, whatever the sections contain. -/
theorem sections_end (bo : ByteOrder) (sections : List Bytes) : scanSections bo sections ≠ .stuck := by
  induction sections with
  | nil => simp [scanSections]
  | cons s r ih =>
    unfold scanSections
    have := scan_not_stuck bo (s.length + 1) s (by omega)
    split
    · exact ih
    · exact this

/-- **C97.** A note which claims a name of more than 2^31-4 bytes makes reading panic. -/
theorem huge_name_panics : linuxVersionCode .little [[0xff, 0xff, 0xff, 0x7f, 0, 0, 0, 0, 0, 0, 0, 0]] = none := by decide

/-- **C97.** The kernel's version is read as it is: a kernel a.b.c says so in the first note of Linux. -/
theorem kernel_version (auxv : List (Nat × Nat)) (mem : Nat → ByteOrder × List Bytes) (addr : Nat) (ha : vdsoAddress auxv = .ok addr) (bo : ByteOrder) (sections : List Bytes)
    (hm : mem addr = (bo, sections)) (a b c : Nat) (h1 : a < 256) (h2 : b < 256)
    (hv : linuxVersionCode bo sections = some (.ok (BitVec.ofNat 32 (KernelInfoSpec.linuxVersionCode a b c)))) :
    ∃ ver, detectKernelVersion auxv mem = some (.ok ver) ∧ ver.major.toNat = a ∧ ver.minor.toNat = b ∧ ver.patch.toNat = min c 255 := by
  unfold detectKernelVersion
  rw [ha]
  dsimp only
  rw [hm]
  dsimp only
  rw [hv]
  refine ⟨_, rfl, ?_, ?_, ?_⟩ <;>
    simp only [Internal.versionFromCode, KernelInfoSpec.linuxVersionCode, BitVec.toNat_setWidth, BitVec.toNat_ushiftRight, BitVec.toNat_ofNat, Nat.shiftRight_eq_div_pow] <;> omega

/-! ## Decimal numbers -/

theorem digit_is (n : Nat) (h : n < 10) : isDigit (digit n) = true ∧ (digit n).toNat - 0x30 = n := by
  revert n; decide

theorem dec_digits (n : Nat) : ∀ c ∈ dec n, isDigit c = true := by
  induction n using dec.induct with
  | case1 n h => rw [dec, if_pos h]; intro c hc; simp at hc; subst hc; exact (digit_is n h).1
  | case2 n h ih =>
    rw [dec, if_neg h]
    intro c hc
    rcases List.mem_append.1 hc with hc | hc
    · exact ih c hc
    · simp at hc; subst hc; exact (digit_is _ (Nat.mod_lt _ (by omega))).1

theorem dec_ne_nil (n : Nat) : dec n ≠ [] := by
  rw [dec]; split <;> simp

theorem value_snoc (a : Bytes) (c : Byte) : value (a ++ [c]) = value a * 10 + (c.toNat - 0x30) := by
  unfold value
  rw [List.foldl_append, List.foldl_cons, List.foldl_nil]

theorem dec_lt (n : Nat) (h : n < 10) : dec n = [digit n] := by
  rw [dec, if_pos h]

theorem value_dec (n : Nat) : value (dec n) = n := by
  induction n using dec.induct with
  | case1 n h =>
    rw [dec_lt n h, ← List.nil_append [digit n], value_snoc, (digit_is n h).2]
    exact Nat.zero_add n
  | case2 n h ih =>
    rw [dec, if_neg h, value_snoc, ih, (digit_is (n % 10) (Nat.mod_lt _ (by omega))).2]
    omega

/-- What follows isn't part of the number. -/
def NoDigit (r : Bytes) : Prop := ∀ c t, r = c :: t → isDigit c = false

theorem scanDigits_dec (n : Nat) (r : Bytes) (hr : NoDigit r) : scanDigits (dec n ++ r) = some (n, r) := by
  have h1 : (dec n ++ r).takeWhile isDigit = dec n := by
    rw [List.takeWhile_append_of_pos (dec_digits n)]
    cases r with
    | nil => simp
    | cons c t => rw [List.takeWhile_cons_of_neg (by rw [hr c t rfl]; simp)]; simp
  have h2 : (dec n ++ r).dropWhile isDigit = r := by
    rw [List.dropWhile_append_of_pos (dec_digits n)]
    cases r with
    | nil => simp
    | cons c t => rw [List.dropWhile_cons_of_neg (by rw [hr c t rfl]; simp)]
  unfold scanDigits
  dsimp only
  rw [h1, h2, if_neg (dec_ne_nil n), value_dec]

/-- A number starts with a digit. -/
theorem dec_head (n : Nat) : ∃ c t, dec n = c :: t ∧ isDigit c = true := by
  cases h : dec n with
  | nil => exact absurd h (dec_ne_nil n)
  | cons c t => exact ⟨c, t, rfl, dec_digits n c (by simp [h])⟩

theorem digit_not (c : Byte) (h : isDigit c = true) : isBlank c = false ∧ c ≠ 0x0a ∧ c ≠ 0x2d ∧ c ≠ 0x2b ∧ c ≠ 0x2c ∧ c ≠ 0x2e := by
  revert c; decide

theorem skipSpace_dec (n : Nat) (r : Bytes) : skipSpace (dec n ++ r) = some (dec n ++ r) := by
  obtain ⟨c, t, e, hc⟩ := dec_head n
  obtain ⟨h1, h2, _⟩ := digit_not c hc
  rw [e, List.cons_append, skipSpace, h1, if_neg (by simp), if_neg h2]

/-- Blanks before a number are skipped, a newline is not. -/
theorem blanks_skipped (c : Byte) (b : Bytes) : (c ∈ [0x20#8, 0x09, 0x0b, 0x0c, 0x0d] → scanInt (c :: b) = scanInt b ∧ scanUint16 (c :: b) = scanUint16 b) ∧
    (c = 0x0a → scanInt (c :: b) = none ∧ scanUint16 (c :: b) = none) := by
  constructor
  · intro h
    have : isBlank c = true := by
      simp only [List.mem_cons, List.not_mem_nil, or_false] at h
      rcases h with rfl | rfl | rfl | rfl | rfl <;> decide
    simp only [scanInt, scanUint16, skipSpace, this, if_true, true_and]
  · rintro rfl
    have : skipSpace (0x0a :: b) = none := by
      unfold skipSpace
      rw [if_neg (by decide), if_pos rfl]
    unfold scanInt scanUint16
    rw [this]
    exact ⟨rfl, rfl⟩

theorem scanInt_dec (n : Nat) (r : Bytes) (hr : NoDigit r) (hn : n < 2 ^ 63) : scanInt (dec n ++ r) = some ((n : Int), r) := by
  unfold scanInt
  rw [skipSpace_dec]
  dsimp only
  have : takeSign (dec n ++ r) = (false, dec n ++ r) := by
    obtain ⟨c, t, e, hc⟩ := dec_head n
    obtain ⟨_, _, h3, h4, _⟩ := digit_not c hc
    rw [e, List.cons_append, takeSign, if_neg h3, if_neg h4]
  rw [this]
  dsimp only
  rw [scanDigits_dec n r hr]
  dsimp only
  simp only [Bool.false_eq_true, if_false]
  rw [if_neg (by omega)]

theorem scanUint16_dec (n : Nat) (r : Bytes) (hr : NoDigit r) (hn : n < 2 ^ 16) : scanUint16 (dec n ++ r) = some (n, r) := by
  unfold scanUint16
  rw [skipSpace_dec]
  dsimp only
  rw [scanDigits_dec n r hr]
  dsimp only
  rw [if_pos hn]

/-! ## CPUs -/

theorem noDigit_cons (c : Byte) (t : Bytes) (h : isDigit c = false) : NoDigit (c :: t) := by
  intro c' t' e; simp at e; rw [← e.1]; exact h

theorem dec_zero : dec 0 = [0x30] := by rw [dec_lt 0 (by omega)]; decide

theorem dec_eq_zero (n : Nat) (h : dec n = [0x30]) : n = 0 := by
  have h1 := value_dec n
  have h2 := value_dec 0
  rw [dec_zero, ← h, h1] at h2
  exact h2

/-- Trimming a text which starts with a digit. -/
theorem trim_digit (t : Bytes) (c : Byte) (hc : isDigit c = true) (h : trimNewlines (c :: t) = [0x30]) : c = 0x30 ∧ ∀ x ∈ t, x = 0x0a := by
  unfold trimNewlines at h
  rw [List.dropWhile_cons_of_neg (by simpa using (digit_not c hc).2.1)] at h
  have h' := congrArg List.reverse h
  rw [List.reverse_reverse] at h'
  have e := List.takeWhile_append_dropWhile (p := fun x : Byte => decide (x = 0x0a)) (l := (c :: t).reverse)
  rw [h'] at e
  have e2 := congrArg List.reverse e
  rw [List.reverse_append, List.reverse_reverse, List.reverse_reverse, List.singleton_append, List.cons.injEq] at e2
  refine ⟨e2.1.symm, fun x hx => ?_⟩
  rw [← e2.2] at hx
  have hall := List.all_takeWhile (p := fun x : Byte => decide (x = 0x0a)) (l := (c :: t).reverse)
  rw [List.all_eq_true] at hall
  have := hall x (by simpa using hx)
  simpa using this

theorem trim_list (n : Nat) (r : Bytes) (h : trimNewlines (dec n ++ r) = [0x30]) : n = 0 ∧ ∀ x ∈ r, x = 0x0a := by
  obtain ⟨c, t, e, hc⟩ := dec_head n
  rw [e, List.cons_append] at h
  obtain ⟨h1, h2⟩ := trim_digit _ c hc h
  have ht : t = [] := by
    cases t with
    | nil => rfl
    | cons x t =>
      have := h2 x (by simp)
      have hx := dec_digits n x (by rw [e]; simp)
      rw [this] at hx
      exact absurd hx (by decide)
  subst ht
  refine ⟨dec_eq_zero n (by rw [e, h1]), fun x hx => h2 x (by simp [hx])⟩

/-- What `parseCPUs` does with a number which something other than the end follows. -/
theorem parse_after (n : Nat) (hn : n < 2 ^ 63) (c : Byte) (t : Bytes) (hc : isDigit c = false) (h0 : ¬ (n = 0 ∧ c = 0x0a ∧ ∀ x ∈ t, x = 0x0a)) :
    parseCPUs (dec n ++ c :: t) = (if c = 0x2d then
      (match scanInt t with
        | none => .error .badFormat
        | some (high, r) =>
          if newlineOrEnd r = false then .error .badFormat
          else if (n : Int) ≠ 0 then .error .badFormat
          else .ok (if high + 1 = 2 ^ 63 then -(2 ^ 63) else high + 1)) else .error .badFormat) := by
  unfold parseCPUs
  rw [if_neg (fun h => by
    obtain ⟨h1, h2⟩ := trim_list n _ h
    exact h0 ⟨h1, h2 c (by simp), fun x hx => h2 x (by simp [hx])⟩), scanInt_dec n _ (noDigit_cons c t hc) hn]
  dsimp only
  by_cases h : c = 0x2d
  · have : literal 0x2d (c :: t) = some t := by unfold literal; exact if_pos h
    rw [if_pos h, this]
    dsimp only
    cases scanInt t <;> rfl
  · have : literal 0x2d (c :: t) = none := by unfold literal; exact if_neg h
    rw [if_neg h, this]

theorem inRuns_bound : ∀ (rs : List (Nat × Nat)) (r : Nat × Nat), Runs (r :: rs) → ∀ c, InRuns (r :: rs) c → r.1 ≤ c
  | [], r, _, c, h => by obtain ⟨q, hq, h1, _⟩ := h; simp at hq; subst hq; exact h1
  | s :: t, r, hr, c, h => by
    obtain ⟨h1, h2, h3⟩ := hr
    obtain ⟨q, hq, h4, h5⟩ := h
    rcases List.mem_cons.1 hq with rfl | hq
    · exact h4
    · have := inRuns_bound t s h3 c ⟨q, hq, h4, h5⟩; omega

/-- **C97.** The number of possible CPUs: of the list the kernel prints, `n` exactly if the CPUs are 0 to n-1; an error if there are gaps. -/
theorem possible_cpus (rs : List (Nat × Nat)) (hne : rs ≠ []) (hr : Runs rs) (hb : ∀ r ∈ rs, r.2 + 1 < 2 ^ 63) :
    (∀ n : Nat, parseCPUs (listText rs ++ [0x0a]) = .ok (n : Int) ↔ ∀ c, InRuns rs c ↔ c < n) ∧
    (∀ i, parseCPUs (listText rs ++ [0x0a]) = .ok i → ∃ n : Nat, i = n) := by
  have fails : ∀ (e : Err), parseCPUs (listText rs ++ [0x0a]) = .error e → (¬ ∃ n : Nat, ∀ c, InRuns rs c ↔ c < n) →
      (∀ n : Nat, parseCPUs (listText rs ++ [0x0a]) = .ok (n : Int) ↔ ∀ c, InRuns rs c ↔ c < n) ∧ (∀ i, parseCPUs (listText rs ++ [0x0a]) = .ok i → ∃ n : Nat, i = n) := by
    intro e he hno
    refine ⟨fun n => ⟨fun h => ?_, fun h => absurd ⟨n, h⟩ hno⟩, fun i h => ?_⟩
    · rw [he] at h; cases h
    · rw [he] at h; cases h
  have gap : ∀ (r s : Nat × Nat) t, rs = r :: s :: t → ¬ ∃ n : Nat, ∀ c, InRuns rs c ↔ c < n := by
    rintro r s t rfl ⟨n, hn⟩
    obtain ⟨h1, h2, h3⟩ := hr
    have hs : s.1 ≤ s.2 := by cases t <;> first | exact h3 | exact h3.1
    have hs1 : s.1 < n := (hn s.1).1 ⟨s, by simp, Nat.le_refl _, hs⟩
    obtain ⟨q, hq, h4, h5⟩ := (hn (r.2 + 1)).2 (by omega)
    rcases List.mem_cons.1 hq with rfl | hq
    · omega
    · have := inRuns_bound t s h3 _ ⟨q, hq, h4, h5⟩; omega
  have high : ∀ (r : Nat × Nat) t, rs = r :: t → r.1 ≠ 0 → ¬ ∃ n : Nat, ∀ c, InRuns rs c ↔ c < n := by
    rintro r t rfl h0 ⟨n, hn⟩
    have hle : r.1 ≤ r.2 := by cases t <;> first | exact hr | exact hr.1
    have := (hn r.1).1 ⟨r, by simp, Nat.le_refl _, hle⟩
    have := inRuns_bound t r hr 0 ((hn 0).2 (by omega))
    omega
  cases rs with
  | nil => exact absurd rfl hne
  | cons r t =>
    have hle : r.1 ≤ r.2 := by cases t <;> first | exact hr | exact hr.1
    have hbr := hb r (by simp)
    -- The text: the first run and what follows it.
    obtain ⟨c, u, htext, hcd⟩ : ∃ c u, listText (r :: t) ++ [0x0a] = runText r ++ c :: u ∧ ((t = [] ∧ c = 0x0a ∧ u = []) ∨ (t ≠ [] ∧ c = 0x2c)) := by
      cases t with
      | nil => exact ⟨0x0a, [], rfl, .inl ⟨rfl, rfl, rfl⟩⟩
      | cons s t => exact ⟨0x2c, listText (s :: t) ++ [0x0a], by simp [listText], .inr ⟨by simp, rfl⟩⟩
    have hnd : isDigit c = false := by rcases hcd with ⟨_, rfl, _⟩ | ⟨_, rfl⟩ <;> decide
    by_cases heq : r.1 = r.2
    · rw [htext] at fails ⊢
      unfold runText at fails ⊢
      rw [if_pos heq] at fails ⊢
      rcases hcd with ⟨rfl, rfl, rfl⟩ | ⟨ht, rfl⟩
      · by_cases h0 : r.1 = 0
        · have hp : parseCPUs (dec r.1 ++ [0x0a]) = .ok 1 := by rw [h0, dec_zero]; decide
          rw [hp]
          refine ⟨fun n => ⟨fun h => ?_, fun h => ?_⟩, fun i h => ⟨1, by cases h; rfl⟩⟩
          · have : n = 1 := by simp at h; omega
            subst this
            intro c
            constructor
            · rintro ⟨q, hq, h1, h2⟩; simp at hq; subst hq; omega
            · intro hc; exact ⟨r, by simp, by omega, by omega⟩
          · have h1 := (h 0).1 ⟨r, by simp, by omega, by omega⟩
            have h2 : ¬ 1 < n := fun h1 => by
              obtain ⟨q, hq, h3, h4⟩ := (h 1).2 h1; simp at hq; subst hq; omega
            have : n = 1 := by omega
            rw [this]; rfl
        · exact fails _ (by rw [parse_after r.1 (by omega) _ _ hnd (fun h => h0 h.1), if_neg (by decide)]) (high r [] rfl h0)
      · obtain ⟨s, t', rfl⟩ : ∃ s t', t = s :: t' := by cases t with | nil => exact absurd rfl ht | cons s t' => exact ⟨s, t', rfl⟩
        exact fails _ (by rw [parse_after r.1 (by omega) _ _ hnd (fun h => by simp at h), if_neg (by decide)]) (gap r s t' rfl)
    · have hp : parseCPUs (dec r.1 ++ 0x2d :: (dec r.2 ++ c :: u)) =
          (if newlineOrEnd (c :: u) = false then .error .badFormat else if (r.1 : Int) ≠ 0 then .error .badFormat else .ok ((r.2 : Int) + 1)) := by
        rw [parse_after r.1 (by omega) _ _ (by decide) (fun h => by simp at h), if_pos rfl, scanInt_dec r.2 _ (noDigit_cons c u hnd) (by omega)]
        dsimp only
        rw [if_neg (show ¬ ((r.2 : Int) + 1 = 2 ^ 63) by omega)]
      have hrt : runText r ++ c :: u = dec r.1 ++ 0x2d :: (dec r.2 ++ c :: u) := by
        unfold runText; rw [if_neg heq]; simp
      rw [htext, hrt] at fails ⊢
      rcases hcd with ⟨rfl, rfl, rfl⟩ | ⟨ht, rfl⟩
      · rw [if_neg (by decide)] at hp
        by_cases h0 : r.1 = 0
        · rw [if_neg (by omega)] at hp
          rw [hp]
          refine ⟨fun n => ⟨fun h => ?_, fun h => ?_⟩, fun i h => ⟨r.2 + 1, by cases h; rfl⟩⟩
          · have : n = r.2 + 1 := by simp at h; omega
            subst this
            intro c
            constructor
            · rintro ⟨q, hq, h1, h2⟩; simp at hq; subst hq; omega
            · intro hc; exact ⟨r, by simp, by omega, by omega⟩
          · have h1 := (h r.2).1 ⟨r, by simp, by omega, by omega⟩
            have h2 : ¬ r.2 + 1 < n := fun h1 => by
              obtain ⟨q, hq, h3, h4⟩ := (h (r.2 + 1)).2 h1; simp at hq; subst hq; omega
            have : n = r.2 + 1 := by omega
            rw [this]; rfl
        · rw [if_pos (by omega)] at hp
          exact fails _ hp (high r [] rfl h0)
      · obtain ⟨s, t', rfl⟩ : ∃ s t', t = s :: t' := by cases t with | nil => exact absurd rfl ht | cons s t' => exact ⟨s, t', rfl⟩
        rw [if_pos (by rw [newlineOrEnd, if_neg (by decide)]; decide)] at hp
        exact fails _ hp (gap r s t' rfl)

/-! ## Version numbers -/

/-- **C97.** Version numbers with and without a patch level, whatever follows them. -/
theorem new_version (a b c : Nat) (ha : a < 2 ^ 16) (hb : b < 2 ^ 16) (hc : c < 2 ^ 16) (r : Bytes) (hr : NoDigit r) :
    newVersion (dec a ++ 0x2e :: (dec b ++ 0x2e :: (dec c ++ r))) = .ok (a, b, c) ∧
    ((∀ t, r ≠ 0x2e :: t) → newVersion (dec a ++ 0x2e :: (dec b ++ r)) = .ok (a, b, 0)) := by
  have e1 : ∀ t, NoDigit (0x2e :: t) := fun t => noDigit_cons _ t (by decide)
  have e2 : ∀ t, literal 0x2e (0x2e :: t) = some t := fun t => by simp [literal]
  constructor
  · unfold newVersion
    rw [scanUint16_dec a _ (e1 _) ha]; dsimp only
    rw [e2]; dsimp only
    rw [scanUint16_dec b _ (e1 _) hb]; dsimp only
    rw [e2]; dsimp only
    rw [scanUint16_dec c _ hr hc]
  · intro hd
    unfold newVersion
    rw [scanUint16_dec a _ (e1 _) ha]; dsimp only
    rw [e2]; dsimp only
    rw [scanUint16_dec b _ hr hb]; dsimp only
    have : literal 0x2e r = none := by
      cases r with
      | nil => rfl
      | cons x t => unfold literal; exact if_neg (fun h => hd t (by rw [h]))
    rw [this]

/-- **C97.** Numbers which don't fit are refused if they are the first or the second. -/
theorem new_version_overflow (a b : Nat) (h : 2 ^ 16 ≤ a ∨ 2 ^ 16 ≤ b) (r : Bytes) (hr : NoDigit r) : ∃ e, newVersion (dec a ++ 0x2e :: (dec b ++ r)) = .error e := by
  have big : ∀ n (t : Bytes), NoDigit t → 2 ^ 16 ≤ n → scanUint16 (dec n ++ t) = none := by
    intro n t ht hn
    unfold scanUint16
    rw [skipSpace_dec]; dsimp only
    rw [scanDigits_dec n t ht]; dsimp only
    rw [if_neg (by omega)]
  have e1 : ∀ t, NoDigit (0x2e :: t) := fun t => noDigit_cons _ t (by decide)
  unfold newVersion
  by_cases ha : 2 ^ 16 ≤ a
  · rw [big a _ (e1 _) ha]; exact ⟨_, rfl⟩
  · rw [scanUint16_dec a _ (e1 _) (by omega)]; dsimp only
    rw [show literal 0x2e (0x2e :: (dec b ++ r)) = some (dec b ++ r) by simp [literal]]; dsimp only
    rw [big b _ hr (by omega)]; exact ⟨_, rfl⟩

/-! ## Versions of features -/

theorem cut_some (p v w : Bytes) : cutPrefix p v = some w ↔ v = p ++ w := by
  unfold cutPrefix
  constructor
  · intro h
    split at h
    · rename_i hp
      cases h
      obtain ⟨t, rfl⟩ := List.isPrefixOf_iff_prefix.1 hp
      rw [List.drop_left]
    · cases h
  · rintro rfl
    rw [if_pos (List.isPrefixOf_iff_prefix.2 ⟨w, rfl⟩), List.drop_left]

theorem colon_unique : ∀ (a b x y : Bytes), 0x3a ∉ a → 0x3a ∉ b → a ++ 0x3a :: x = b ++ 0x3a :: y → a = b ∧ x = y
  | [], [], x, y, _, _, h => by simpa using h
  | [], c :: b, x, y, _, hb, h => by simp at h; exact absurd (by simp [h.1]) hb
  | c :: a, [], x, y, ha, _, h => by simp at h; exact absurd (by simp [h.1]) ha
  | c :: a, d :: b, x, y, ha, hb, h => by
    simp only [List.cons_append, List.cons.injEq] at h
    obtain ⟨rfl, h⟩ := h
    obtain ⟨rfl, rfl⟩ := colon_unique a b x y (fun hm => ha (List.mem_cons_of_mem _ hm)) (fun hm => hb (List.mem_cons_of_mem _ hm)) h
    exact ⟨rfl, rfl⟩

theorem selectLoop_step (goos native v : Bytes) (r : List Bytes) (hg : 0x3a ∉ goos) (hn : 0x3a ∉ native) :
    (∀ w, Applies goos native v w → selectLoop goos native (v :: r) = w) ∧ ((¬ ∃ w, Applies goos native v w) → selectLoop goos native (v :: r) = selectLoop goos native r) := by
  have e : ∀ p w : Bytes, p ++ [0x3a] ++ w = p ++ 0x3a :: w := fun p w => by simp
  rw [selectLoop]
  cases h1 : cutPrefix (goos ++ [0x3a]) v with
  | some a =>
    rw [cut_some, e] at h1
    refine ⟨fun w hw => ?_, fun hno => absurd ⟨a, .inl h1⟩ hno⟩
    rcases hw with h | ⟨_, h⟩ | ⟨_, h, _⟩
    · exact (colon_unique _ _ _ _ hg hg (h1.symm.trans h)).2
    · exact (colon_unique _ _ _ _ hg hn (h1.symm.trans h)).2
    · exact absurd (by rw [h1]; simp) h
  | none =>
    have g1 : ∀ w, v ≠ goos ++ 0x3a :: w := fun w h => by
      rw [(cut_some _ _ w).2 (by rw [e]; exact h)] at h1; cases h1
    dsimp only
    cases h2 : (if native ≠ [] ∧ native ≠ goos then cutPrefix (native ++ [0x3a]) v else none) with
    | some a =>
      split at h2
      · rename_i hc
        rw [cut_some, e] at h2
        refine ⟨fun w hw => ?_, fun hno => absurd ⟨a, .inr (.inl ⟨hc.1, h2⟩)⟩ hno⟩
        rcases hw with h | ⟨_, h⟩ | ⟨_, h, _⟩
        · exact absurd h (g1 w)
        · exact (colon_unique _ _ _ _ hn hn (h2.symm.trans h)).2
        · exact absurd (by rw [h2]; simp) h
      · cases h2
    | none =>
      have g2 : ∀ w, native ≠ [] → v ≠ native ++ 0x3a :: w := fun w hne h => by
        by_cases hng : native = goos
        · exact g1 w (hng ▸ h)
        · rw [if_pos ⟨hne, hng⟩, (cut_some _ _ w).2 (by rw [e]; exact h)] at h2; cases h2
      dsimp only
      by_cases h3 : native = linuxOS ∧ v.contains 0x3a = false
      · rw [if_pos h3]
        have hnm : 0x3a ∉ v := by
          have := h3.2
          intro hm
          rw [List.contains_iff_mem.2 hm] at this
          cases this
        refine ⟨fun w hw => ?_, fun hno => absurd ⟨v, .inr (.inr ⟨h3.1, hnm, rfl⟩)⟩ hno⟩
        rcases hw with h | ⟨hne, h⟩ | ⟨_, _, h⟩
        · exact absurd h (g1 w)
        · exact absurd h (g2 w hne)
        · exact h.symm
      · rw [if_neg h3]
        refine ⟨fun w hw => ?_, fun _ => rfl⟩
        rcases hw with h | ⟨hne, h⟩ | ⟨hl, hm, h⟩
        · exact absurd h (g1 w)
        · exact absurd h (g2 w hne)
        · refine absurd ⟨hl, ?_⟩ h3
          rcases hb : v.contains 0x3a with _ | _
          · rfl
          · exact absurd (List.contains_iff_mem.1 hb) hm

/-- **C97.** The version of a feature is the first one given for the platform. -/
theorem select_version (goos native : Bytes) (hg : 0x3a ∉ goos) (hn : 0x3a ∉ native) (pre : List Bytes) (v w : Bytes) (post : List Bytes)
    (hp : ∀ x ∈ pre, ¬ ∃ w, Applies goos native x w) (hv : Applies goos native v w) : selectVersion goos native (pre ++ v :: post) = .ok w := by
  unfold selectVersion
  rw [if_neg (by simp)]
  congr 1
  induction pre with
  | nil => exact (selectLoop_step goos native v post hg hn).1 w hv
  | cons x r ih =>
    rw [List.cons_append, (selectLoop_step goos native x _ hg hn).2 (hp x (by simp))]
    exact ih (fun x hx => hp x (by simp [hx]))

/-- **C97.** If none is given for the platform the result is empty; if none is given at all it is an error. -/
theorem select_version_none (goos native : Bytes) (hg : 0x3a ∉ goos) (hn : 0x3a ∉ native) (versions : List Bytes) (hp : ∀ x ∈ versions, ¬ ∃ w, Applies goos native x w) :
    selectVersion goos native versions = if versions = [] then .error .badFormat else .ok [] := by
  unfold selectVersion
  split
  · rfl
  · congr 1
    rename_i hne
    clear hne
    induction versions with
    | nil => rfl
    | cons x r ih =>
      rw [(selectLoop_step goos native x _ hg hn).2 (hp x (by simp))]
      exact ih (fun x hx => hp x (by simp [hx]))

/-! ## Examples -/

/-- A note of GNU, then that of Linux 6.1.5. -/
def exNotes : List Note := [⟨[0x47, 0x4e, 0x55, 0], 3, [1, 2, 3]⟩, ⟨[0x4c, 0x69, 0x6e, 0x75, 0x78, 0], 0, ByteOrder.big.put32 0x60105⟩]

example : linuxVersionCode .big [exNotes.flatMap (Note.bytes .big)] = some (.ok 0x60105#32) := by
  have := version_code .big [] [⟨[0x47, 0x4e, 0x55, 0], 3, [1, 2, 3]⟩] ⟨[0x4c, 0x69, 0x6e, 0x75, 0x78, 0], 0, ByteOrder.big.put32 0x60105⟩ [] [] 0x60105#32 (by simp)
    (by
      intro m hm
      simp at hm
      subst hm
      refine ⟨⟨by decide, by decide⟩, ?_⟩
      rintro ⟨v, ⟨r, e, _⟩, _⟩
      simp at e)
    (by simp) ⟨by decide, by decide⟩ ⟨⟨[0], rfl, .inr ⟨[], rfl⟩⟩, rfl, rfl⟩
  exact this

/-- "0-3", "0,2-3", "5". -/
example : parseCPUs [0x30, 0x2d, 0x33, 0x0a] = .ok 4 ∧ parseCPUs [0x30, 0x2c, 0x32, 0x2d, 0x33, 0x0a] = .error .badFormat ∧
    parseCPUs [0x35, 0x0a] = .error .badFormat ∧ parseCPUs [0x30, 0x0a] = .ok 1 := by decide

example : Runs [(0, 3), (5, 5)] ∧ ∀ r ∈ [(0, 3), (5, 5)], r.2 + 1 < 2 ^ 63 := by
  refine ⟨⟨by decide, by decide, Nat.le_refl 5⟩, by decide⟩

/-- "5.15.3-generic". -/
example : newVersion [0x35, 0x2e, 0x31, 0x35, 0x2e, 0x33, 0x2d, 0x67] = .ok (5, 15, 3) := by decide

example : vdsoAddress [(3, 7), (33, 0x7fff0000), (0, 0)] = .ok 0x7fff0000 := by decide

end Ebpf.KernelInfo
