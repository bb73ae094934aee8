import Verif.Props.BtfFile
import Verif.Props.BtfStrings
/-! # C26: the string table and the header of a blob -/
namespace Ebpf.Btf
open BtfSpec
set_option linter.unusedSectionVars false

/-- Strings `ss` were added to `sb`, one by one, giving `sb'`. -/
def Adds (sb : Builder) (ss : List Bytes) (sb' : Builder) : Prop := ∃ os, Builder.addAll sb ss = some (os, sb')

theorem Adds.nil (sb : Builder) : Adds sb [] sb := ⟨[], rfl⟩
theorem Adds.cons {sb sb1 sb2 : Builder} {s : Bytes} {ss : List Bytes} {o} (h : sb.add s = some (o, sb1)) (h2 : Adds sb1 ss sb2) : Adds sb (s :: ss) sb2 := by
  obtain ⟨os, h2⟩ := h2
  exact ⟨o :: os, by simp only [Builder.addAll, h, h2]⟩
theorem Adds.append {sb sb1 sb2 : Builder} {ss ts : List Bytes} (h : Adds sb ss sb1) (h2 : Adds sb1 ts sb2) : Adds sb (ss ++ ts) sb2 := by
  obtain ⟨os, h⟩ := h
  induction ss generalizing sb os with
  | nil => cases h; exact h2
  | cons s ss ih =>
    simp only [Builder.addAll] at h
    split at h
    · cases h
    · rename_i o b hb
      split at h
      · cases h
      · rename_i os' b' hb'
        cases h
        exact Adds.cons hb (ih _ hb')

section deflate
variable {T : Type}

/-- The strings in a record. -/
def strings : Node T → List Bytes
  | .struct n _ ms _ => n :: ms.map (·.name)
  | .union n _ ms _ => n :: ms.map (·.name)
  | .enum n _ _ vs => n :: vs.map (·.name)
  | .funcProto _ ps => ps.map (·.name)
  | .declTag _ v _ => [v]
  | .typeTag _ v => [v]
  | n => [n.name]

theorem members_adds (bo : ByteOrder) (idOf : T → Option (BitVec 32)) : ∀ (ms : List (Member T)) (bf bf' : Bool) (sb sb' : Builder) (data : Bytes),
    deflateMembers bo idOf ms bf sb = some (data, bf', sb') → Adds sb (ms.map (·.name)) sb'
  | [], bf, bf', sb, sb', data, h => by cases h; exact Adds.nil _
  | m :: ms, bf, bf', sb, sb', data, h => by
    simp only [deflateMembers] at h
    split at h
    · cases h
    · rename_i o sb1 h1
      split at h
      · cases h
      · split at h
        · cases h
        · rename_i rest bf2 sb2 h2
          cases h
          exact Adds.cons h1 (members_adds bo idOf ms _ _ _ _ _ h2)

theorem enums_adds (bo : ByteOrder) (sg : Bool) : ∀ (vs : List EnumValue) (sb sb' : Builder) (data : Bytes),
    deflateEnumValues bo sg vs sb = some (data, sb') → Adds sb (vs.map (·.name)) sb'
  | [], sb, sb', data, h => by cases h; exact Adds.nil _
  | v :: vs, sb, sb', data, h => by
    simp only [deflateEnumValues] at h
    split at h
    · cases h
    · rename_i o sb1 h1
      split at h
      · cases h
      · split at h
        · cases h
        · rename_i rest sb2 h2
          cases h
          exact Adds.cons h1 (enums_adds bo sg vs _ _ _ h2)

theorem enums64_adds (bo : ByteOrder) : ∀ (vs : List EnumValue) (sb sb' : Builder) (data : Bytes),
    deflateEnum64Values bo vs sb = some (data, sb') → Adds sb (vs.map (·.name)) sb'
  | [], sb, sb', data, h => by cases h; exact Adds.nil _
  | v :: vs, sb, sb', data, h => by
    simp only [deflateEnum64Values] at h
    split at h
    · cases h
    · rename_i o sb1 h1
      split at h
      · cases h
      · rename_i rest sb2 h2
        cases h
        exact Adds.cons h1 (enums64_adds bo vs _ _ _ h2)

theorem params_adds (bo : ByteOrder) (idOf : T → Option (BitVec 32)) : ∀ (ps : List (FuncParam T)) (sb sb' : Builder) (data : Bytes),
    deflateFuncParams bo idOf ps sb = some (data, sb') → Adds sb (ps.map (·.name)) sb'
  | [], sb, sb', data, h => by cases h; exact Adds.nil _
  | v :: vs, sb, sb', data, h => by
    simp only [deflateFuncParams] at h
    split at h
    · cases h
    · rename_i o sb1 h1
      split at h
      · cases h
      · split at h
        · cases h
        · rename_i rest sb2 h2
          cases h
          exact Adds.cons h1 (params_adds bo idOf vs _ _ _ h2)

theorem composite_adds (bo : ByteOrder) (idOf : T → Option (BitVec 32)) (raw : BtfType) (k : BitVec 8) (size : BitVec 32) (ms : List (Member T)) (sb sb' : Builder)
    (raw' : BtfType) (data : Bytes) (h : deflateComposite bo idOf raw k size ms sb = some (raw', data, sb')) : Adds sb (ms.map (·.name)) sb' := by
  unfold deflateComposite at h
  split at h
  · cases h
  · rename_i d bf sb2 h2
    cases h
    exact members_adds bo idOf ms _ _ _ _ _ h2

theorem ref_adds (idOf : T → Option (BitVec 32)) (raw : BtfType) (k : BitVec 8) (t : T) (sb sb' : Builder) (raw' : BtfType) (data : Bytes)
    (h : deflateRef idOf raw k t sb = some (raw', data, sb')) : sb' = sb := by
  unfold deflateRef at h
  split at h <;> cases h
  rfl

/-- Writing a type adds the strings of the record, and possibly the empty string. -/
theorem deflateType_adds (o : Opts) (bo : ByteOrder) (idOf : T → Option (BitVec 32)) (ph : T) (n : Node T) (sb sb' : Builder) (raw : BtfType) (data : Bytes)
    (h : deflateType o bo idOf ph n sb = some (raw, data, sb')) :
    ∃ ss, Adds sb ss sb' ∧ ∀ s ∈ ss, s = [] ∨ s ∈ strings (lower o ph n) := by
  simp only [deflateType] at h
  split at h
  · cases h
  rename_i off sb1 h1
  have one : Adds sb [n.name] sb1 := Adds.cons h1 (Adds.nil _)
  cases n with
  | void => cases h
  | cycle t => cases h
  | int nm s e => cases h; exact ⟨_, one, by simp [strings, lower, Node.name]⟩
  | ptr t => have := ref_adds _ _ _ _ _ _ _ _ h; subst this; exact ⟨_, one, by simp [Node.name]⟩
  | typedef nm t ts => have := ref_adds _ _ _ _ _ _ _ _ h; subst this; exact ⟨_, one, by simp [Node.name, lower, strings]⟩
  | volatile t => have := ref_adds _ _ _ _ _ _ _ _ h; subst this; exact ⟨_, one, by simp [Node.name]⟩
  | const t => have := ref_adds _ _ _ _ _ _ _ _ h; subst this; exact ⟨_, one, by simp [Node.name]⟩
  | restrict t => have := ref_adds _ _ _ _ _ _ _ _ h; subst this; exact ⟨_, one, by simp [Node.name]⟩
  | array i t k =>
    simp only at h
    split at h
    · cases h
    · split at h <;> cases h
      exact ⟨_, one, by simp [Node.name]⟩
  | struct nm s ms ts =>
    exact ⟨_, one.append (composite_adds _ _ _ _ _ _ _ _ _ _ h), by
      intro x hx; right; simp only [lower, strings, List.map_map]; simp only [Node.name] at hx; simpa [Function.comp_def, untag] using hx⟩
  | union nm s ms ts =>
    exact ⟨_, one.append (composite_adds _ _ _ _ _ _ _ _ _ _ h), by
      intro x hx; right; simp only [lower, strings, List.map_map]; simp only [Node.name] at hx; simpa [Function.comp_def, untag] using hx⟩
  | enum nm s sg vs =>
    simp only at h
    split at h
    · rename_i hs
      split at h
      · rename_i hr
        refine ⟨_, one.append (composite_adds _ _ _ _ _ _ _ _ _ _ h), ?_⟩
        simp only [Node.name, lower, hr, hs, if_true, strings, List.map_map]
        intro x hx; right; simpa using hx
      · rename_i hr
        split at h
        · cases h
        · rename_i d sb2 h2
          cases h
          refine ⟨_, one.append (enums64_adds _ _ _ _ _ h2), ?_⟩
          simp only [Node.name, lower, hr, strings]
          intro x hx; right; simpa using hx
    · rename_i hs
      split at h
      · cases h
      · rename_i d sb2 h2
        cases h
        refine ⟨_, one.append (enums_adds _ _ _ _ _ _ h2), ?_⟩
        intro x hx; right
        simp only [Node.name] at hx
        simp only [lower]
        split <;> (try rw [if_neg hs]) <;> simp only [strings, List.map_map] <;> simpa using hx
  | fwd nm k => cases h; exact ⟨_, one, by simp [Node.name, lower, strings]⟩
  | func nm t l ts pts =>
    simp only at h
    split at h <;> cases h
    exact ⟨_, one, by simp [Node.name, lower, strings]⟩
  | funcProto r ps =>
    simp only at h
    split at h
    · cases h
    · split at h
      · cases h
      · rename_i d sb2 h2
        cases h
        exact ⟨_, one.append (params_adds _ _ _ _ _ _ h2), by simp [Node.name, lower, strings]⟩
  | var nm t l ts =>
    simp only at h
    split at h <;> cases h
    exact ⟨_, one, by simp [Node.name, lower, strings]⟩
  | datasec nm s vs =>
    simp only at h
    split at h <;> cases h
    exact ⟨_, one, by simp [Node.name, lower, strings]⟩
  | float nm s => cases h; exact ⟨_, one, by simp [Node.name, lower, strings]⟩
  | declTag t v i =>
    simp only at h
    split at h
    · rename_i hr
      split at h
      · cases h
      · rename_i h2
        cases h
        exact ⟨_, one.append (Adds.cons h2 (Adds.nil _)), by simp [Node.name, lower, strings, hr]⟩
    · rename_i hr
      split at h
      · cases h
      · split at h
        · cases h
        · rename_i h2
          cases h
          exact ⟨_, one.append (Adds.cons h2 (Adds.nil _)), by simp [Node.name, lower, strings, hr]⟩
  | typeTag t v =>
    simp only at h
    split at h
    · have := ref_adds _ _ _ _ _ _ _ _ h; subst this; exact ⟨_, one, by simp [Node.name]⟩
    · rename_i hr
      split at h
      · cases h
      · split at h
        · cases h
        · rename_i h2
          cases h
          exact ⟨_, one.append (Adds.cons h2 (Adds.nil _)), by simp [Node.name, lower, strings, hr]⟩
end deflate

/-- The distinct strings of a list are not longer than the list. -/
theorem table_le : ∀ (l m : List Bytes), l.Nodup → (∀ s ∈ l, s = [] ∨ s ∈ m) →
    (table l).length ≤ (m.map fun s => s.length + 1).sum + 1 ∧ ([] ∉ l → (table l).length ≤ (m.map fun s => s.length + 1).sum) := by
  intro l
  induction l with
  | nil => intro m _ _; simp [table]
  | cons x l ih =>
    intro m hn hm
    rw [List.nodup_cons] at hn
    rw [table_cons]
    by_cases hx : x = []
    · subst hx
      have := (ih m hn.2 (fun s hs => hm s (List.mem_cons_of_mem _ hs))).2 hn.1
      simp at this ⊢
      omega
    · have hxm : x ∈ m := (hm x List.mem_cons_self).resolve_left hx
      have hsum : (m.map fun s => s.length + 1).sum = x.length + 1 + ((m.erase x).map fun s => s.length + 1).sum := by
        have := ((List.perm_cons_erase hxm).map fun s : Bytes => s.length + 1).sum_nat
        rw [this]; simp
      have := ih (m.erase x) hn.2 (by
        intro s hs
        rcases hm s (List.mem_cons_of_mem _ hs) with h | h
        · exact .inl h
        · refine .inr ((List.mem_erase_of_ne ?_).2 h)
          rintro rfl; exact hn.1 hs)
      rw [hsum]
      refine ⟨?_, fun hne => ?_⟩
      · have := this.1; simp at this ⊢; omega
      · have := this.2 (fun h => hne (List.mem_cons_of_mem _ h)); simp at this ⊢; omega

/-- A table written by a builder resolves the offsets the builder gave. -/
theorem resolves_table (sb : Builder) (order : List Bytes) (hb : Holds sb order) (hlen : (table order).length < 2 ^ 32)
    (entries : List (Bytes × BitVec 32)) (hp : entries.Perm sb.strings) :
    ∃ st, newStringTable (encodeStrings sb.length entries) none = some st ∧ Resolves st.lookup sb ∧
      (encodeStrings sb.length entries).length = sb.length.toNat := by
  have henc := encode_exact sb order entries hb hp hlen
  rw [henc]
  have hne : order ≠ [] := by intro h; have := hb.head; rw [h] at this; cases this
  have hlast := (table_last order)
  have hst : newStringTable (table order) none = some ⟨none, table order⟩ := by
    unfold newStringTable
    obtain ⟨x, l, rfl⟩ := List.exists_cons_of_ne_nil hne
    have hx : x = [] := by have := hb.head; simpa using this
    subst hx
    have hl : (table ([] :: l)).getLast? = some 0 := by
      rcases hlast with h | h
      · simp [table] at h
      · exact h
    have hh : (table ([] :: l)).head? = some 0 := by simp [table]
    simp only [hl, hh]
    simp
  refine ⟨_, hst, ?_, ?_⟩
  · intro s off hl
    rw [lookup_exact _ _ _ _ _ hst (by simp) (by simpa using hlen)]
    obtain ⟨pre, post, ho, hoff⟩ := (hb.entries s off).1 (mem_of_lookup _ _ _ hl)
    have hpre : (table pre).length < 2 ^ 32 := by
      rw [ho, table_append] at hlen; simp at hlen; omega
    by_cases h0 : off = 0
    · left
      refine ⟨h0, ?_⟩
      rw [h0] at hoff
      have hz : (table pre).length = 0 := by
        have := congrArg BitVec.toNat hoff
        rw [BitVec.toNat_ofNat, Nat.mod_eq_of_lt hpre] at this
        exact this.symm
      have : pre = [] := by
        cases pre with
        | nil => rfl
        | cons a b => rw [table_cons] at hz; simp at hz
      subst this
      have := hb.head; rw [ho] at this; simpa using this
    · right
      refine ⟨h0, table pre, table post, ?_, ?_, hb.nonul s (by rw [ho]; simp), table_last pre⟩
      · simp [ho, table_append, table_cons]
      · rw [hoff, BitVec.toNat_ofNat, Nat.mod_eq_of_lt hpre]
  · rw [hb.len, BitVec.toNat_ofNat, Nat.mod_eq_of_lt hlen]

theorem get16_put16 (bo : ByteOrder) (x : BitVec 16) : ∃ a b, bo.put16 x = [a, b] ∧ bo.get16 a b = x := by
  cases bo <;> refine ⟨_, _, rfl, ?_⟩ <;> simp only [ByteOrder.get16] <;> apply BitVec.eq_of_getLsbD_eq <;> intro i hi <;>
    simp only [BitVec.getLsbD_append, BitVec.getLsbD_extractLsb'] <;> by_cases h : i < 8 <;> simp [h] <;> (rw [show 8 + (i - 8) = i by omega, decide_eq_true (show i - 8 < 8 by omega)]; rfl)

/-- Reading the header `Marshal` writes gives it back, in the byte order in which it was written. -/
theorem parse_encodeBTFHeader (bo : ByteOrder) (tl sl : BitVec 32) (rest : Bytes) :
    parseBTFHeader (encodeBTFHeader bo tl sl ++ rest) = some (⟨0xeb9f, 1, 0, 24, 0, tl, tl, sl⟩, bo) := by
  have dec : ∀ bo' : ByteOrder, ∃ h, decodeHeader bo' (encodeBTFHeader bo tl sl ++ rest) = some (h, rest) ∧
      (bo' = bo → h = ⟨0xeb9f, 1, 0, 24, 0, tl, tl, sl⟩) ∧ (bo' ≠ bo → h.magic ≠ 0xeb9f) := by
    intro bo'
    have t : ∀ (x : BitVec 32) (r : Bytes), ∃ y, take32 bo' (bo.put32 x ++ r) = some (y, r) ∧ (bo' = bo → y = x) := by
      intro x r
      obtain ⟨a, b, c, d, hp, hg⟩ := get32_put32 bo x
      rw [hp]
      exact ⟨bo'.get32 a b c d, rfl, by rintro rfl; exact hg⟩
    obtain ⟨y1, h1, e1⟩ := t 24 (bo.put32 0 ++ (bo.put32 tl ++ (bo.put32 tl ++ (bo.put32 sl ++ rest))))
    obtain ⟨y2, h2, e2⟩ := t 0 (bo.put32 tl ++ (bo.put32 tl ++ (bo.put32 sl ++ rest)))
    obtain ⟨y3, h3, e3⟩ := t tl (bo.put32 tl ++ (bo.put32 sl ++ rest))
    obtain ⟨y4, h4, e4⟩ := t tl (bo.put32 sl ++ rest)
    obtain ⟨y5, h5, e5⟩ := t sl rest
    obtain ⟨a, b, hm, hg⟩ := get16_put16 bo 0xeb9f
    refine ⟨⟨bo'.get16 a b, 1, 0, y1, y2, y3, y4, y5⟩, ?_, ?_, ?_⟩
    · simp only [encodeBTFHeader, hm, List.append_assoc, List.cons_append, List.nil_append, decodeHeader, h1, h2, h3, h4, h5]
    · intro hbo
      rw [e1 hbo, e2 hbo, e3 hbo, e4 hbo, e5 hbo, hbo, hg]
    · intro hbo
      cases bo <;> cases bo' <;> simp only [ne_eq, not_true_eq_false] at hbo <;> simp only [ByteOrder.put16] at hm <;> cases hm <;> dsimp only <;> decide
  obtain ⟨hl, dl, el, nl⟩ := dec .little
  obtain ⟨hb, db, eb, nb⟩ := dec .big
  unfold parseBTFHeader
  rw [dl]
  dsimp only
  cases bo with
  | little =>
    rw [el rfl, if_pos rfl, if_pos (by simp [checkHeader])]
  | big =>
    rw [if_neg (nl (by decide)), db]
    dsimp only
    rw [eb rfl, if_pos rfl, if_pos (by simp [checkHeader])]

/-- A header is accepted only with version 1, no flags and a length of at least 24 bytes within the blob; apart from the layout (the eight bytes that follow
the header proper if there is room for it), what the header has beyond 24 bytes is zero. -/
theorem header_accepted (buf : Bytes) (h : BtfHeader) (bo : ByteOrder) (hp : parseBTFHeader buf = some (h, bo)) :
    ∃ rest, decodeHeader bo buf = some (h, rest) ∧ h.magic = 0xeb9f ∧ h.version = 1 ∧ h.flags = 0 ∧ 24 ≤ h.hdrLen.toNat ∧ h.hdrLen.toNat - 24 ≤ rest.length ∧
      ∀ i (b : Byte), rest[i]? = some b → i < h.hdrLen.toNat - 24 → (8 ≤ i ∨ h.hdrLen.toNat < 32) → b = 0 := by
  have key : ∀ (h : BtfHeader) (rest : Bytes), checkHeader h rest = true → h.version = 1 ∧ h.flags = 0 ∧ 24 ≤ h.hdrLen.toNat ∧
      h.hdrLen.toNat - 24 ≤ rest.length ∧ ∀ i (b : Byte), rest[i]? = some b → i < h.hdrLen.toNat - 24 → (8 ≤ i ∨ h.hdrLen.toNat < 32) → b = 0 := by
    intro h rest hc
    simp only [checkHeader, Bool.and_eq_true, beq_iff_eq, decide_eq_true_eq, List.all_eq_true] at hc
    obtain ⟨⟨⟨⟨c1, c2⟩, c3⟩, c4⟩, c5⟩ := hc
    refine ⟨c1, c2, c3, c4, ?_⟩
    intro i b hb hi hor
    apply c5 b
    by_cases h8 : 8 ≤ h.hdrLen.toNat - 24
    · rw [if_pos h8]
      refine List.mem_of_getElem? (i := i - 8) ?_
      rw [List.getElem?_drop, show 8 + (i - 8) = i by omega, List.getElem?_take_of_lt hi, hb]
    · rw [if_neg h8]
      refine List.mem_of_getElem? (i := i) ?_
      rw [List.drop_zero, List.getElem?_take_of_lt hi, hb]
  unfold parseBTFHeader at hp
  split at hp
  · cases hp
  next h1 r1 hd1 =>
  split at hp
  · next hm =>
    split at hp
    · next hc =>
      simp only [Option.some.injEq, Prod.mk.injEq] at hp
      obtain ⟨rfl, rfl⟩ := hp
      exact ⟨r1, hd1, hm, key _ _ hc⟩
    · cases hp
  · split at hp
    · cases hp
    next h2 r2 hd2 =>
    split at hp
    · next hm =>
      split at hp
      · next hc =>
        simp only [Option.some.injEq, Prod.mk.injEq] at hp
        obtain ⟨rfl, rfl⟩ := hp
        exact ⟨r2, hd2, hm, key _ _ hc⟩
      · cases hp
    · cases hp

/-- A header with a layout and four more bytes: the former may be anything, the latter are zero. -/
example : checkHeader ⟨0xeb9f, 1, 0, 36, 0, 0, 0, 0⟩ [1, 2, 3, 4, 5, 6, 7, 8, 0, 0, 0, 0] = true ∧
    checkHeader ⟨0xeb9f, 1, 0, 36, 0, 0, 0, 0⟩ [1, 2, 3, 4, 5, 6, 7, 8, 0, 0, 1, 0] = false ∧
    checkHeader ⟨0xeb9f, 1, 0, 28, 0, 0, 0, 0⟩ [0, 0, 0, 0] = true ∧ checkHeader ⟨0xeb9f, 1, 0, 28, 0, 0, 0, 0⟩ [0, 1, 0, 0] = false := by decide

/-- A blob made of records and a string table loads. -/
theorem load_blob (bo : ByteOrder) (types strs : Bytes) (st : StrTab) (d : Dec) (htl : types.length < 2 ^ 32) (hsl : strs.length < 2 ^ 32)
    (hst : newStringTable strs none = some st) (hd : newDecoder types bo st = some d) :
    loadRawSpec (encodeBTFHeader bo (BitVec.ofNat 32 types.length) (BitVec.ofNat 32 strs.length) ++ types ++ strs) = some d := by
  have hlen : ∀ tl sl, (encodeBTFHeader bo tl sl).length = 24 := by
    intro tl sl
    obtain ⟨a, b, hm, hg⟩ := get16_put16 bo 0xeb9f
    simp only [encodeBTFHeader, put32_length, hm, List.length_append, List.length_cons, List.length_nil]
  unfold loadRawSpec
  rw [List.append_assoc, parse_encodeBTFHeader]
  dsimp only
  have h24 : (24 : BitVec 32).toNat = 24 := rfl
  have ht : (BitVec.ofNat 32 types.length).toNat = types.length := by rw [BitVec.toNat_ofNat, Nat.mod_eq_of_lt htl]
  have hs : (BitVec.ofNat 32 strs.length).toNat = strs.length := by rw [BitVec.toNat_ofNat, Nat.mod_eq_of_lt hsl]
  have hdrop : (encodeBTFHeader bo (BitVec.ofNat 32 types.length) (BitVec.ofNat 32 strs.length) ++ (types ++ strs)).drop 24 = types ++ strs := by
    rw [← hlen (BitVec.ofNat 32 types.length) (BitVec.ofNat 32 strs.length), List.drop_left]
  rw [h24, if_neg (by simp only [List.length_append, hlen]; omega), hdrop, ht, hs, if_neg (by simp)]
  rw [List.drop_left, List.take_length, hst]
  dsimp only
  have h0 : (0 : BitVec 32).toNat = 0 := rfl
  rw [h0, if_neg (by simp), List.drop_zero, List.take_left, hd]

section marshal
variable {R : Type} [DecidableEq R]

theorem deflatePending_adds (o : Opts) (bo : ByteOrder) (g : Graph R) (fuel : Nat) : ∀ (n : Nat) (e e' : Enc R) (recs : List (TRef R × Bytes)),
    deflatePending o bo g fuel n e = some (recs, e') →
    ∃ ss, Adds e.strings ss e'.strings ∧ ∀ s ∈ ss, s = [] ∨ ∃ t ∈ recs.map (·.1), s ∈ strings (lower o (placeholderOf t) (extGraph g t)) := by
  intro n
  induction n with
  | zero =>
    intro e e' recs h
    unfold deflatePending at h
    split at h
    · cases h; exact ⟨[], Adds.nil _, by simp⟩
    · cases h
  | succ n ih =>
    intro e e' recs h
    unfold deflatePending at h
    split at h
    · cases h; exact ⟨[], Adds.nil _, by simp⟩
    · rename_i root pending hp
      dsimp only at h
      cases ha : allocateIDs g fuel root { e with pending := pending } with
      | none => rw [ha] at h; cases h
      | some e1 =>
        rw [ha] at h; dsimp only at h
        cases hb : allocatePlaceholder o g fuel root e1 with
        | none => rw [hb] at h; cases h
        | some e2 =>
          rw [hb] at h; dsimp only at h
          cases hd : deflateType o bo (e2.id g) (placeholderOf root) (extGraph g root) e2.strings with
          | none => rw [hd] at h; cases h
          | some q =>
            obtain ⟨raw, data, sb⟩ := q
            rw [hd] at h; dsimp only at h
            cases hrest : deflatePending o bo g fuel n { e2 with strings := sb } with
            | none => rw [hrest] at h; cases h
            | some q =>
              obtain ⟨rest, e3⟩ := q
              rw [hrest] at h
              cases h
              obtain ⟨ts, h2, h3⟩ := ih { e2 with strings := sb } e' rest hrest
              obtain ⟨k1, s1⟩ := allocateIDs_keep g fuel root _ _ ha
              obtain ⟨k2, s2⟩ := allocatePlaceholder_keep o g fuel root _ _ hb
              obtain ⟨ss, h4, h5⟩ := deflateType_adds _ _ _ _ _ _ _ _ _ hd
              rw [s2, s1] at h4
              refine ⟨ss ++ ts, h4.append h2, ?_⟩
              intro s hs
              rw [List.mem_append] at hs
              rcases hs with hs | hs
              · rcases h5 s hs with h | h
                · exact .inl h
                · exact .inr ⟨root, by simp, h⟩
              · rcases h3 s hs with h | ⟨t, ht, h⟩
                · exact .inl h
                · exact .inr ⟨t, by simp only [List.map_cons, List.mem_cons]; exact .inr ht, h⟩
end marshal
end Ebpf.Btf
