import Verif.Model.BtfHeader
import Verif.Spec.BtfHeader
import Verif.Lemmas.Bits
/-! # C25: BTF header fields are independent and laid out as documented -/
namespace Ebpf.Btf

theorem mask_getLsbD (len i : Nat) (h : len < 32) : (mask len).getLsbD i = decide (i < len) := by
  have e : mask len = BitVec.ofNat 32 (2 ^ len - 1) := by
    apply BitVec.eq_of_toNat_eq
    have h1 : 2 ^ len < 2 ^ 32 := Nat.pow_lt_pow_right (by omega) h
    have h0 : 1 ≤ 2 ^ len := Nat.one_le_two_pow
    simp [mask, BitVec.toNat_sub, Nat.shiftLeft_eq]
    omega
  rw [e, BitVec.getLsbD_ofNat, Nat.testBit_two_pow_sub_one]
  by_cases hi : i < len
  · simp [hi]; omega
  · simp [hi]

theorem readBits_getLsbD (v : BitVec 32) (len shift i : Nat) (h : len < 32) :
    (readBits v len shift).getLsbD i = (v.getLsbD (shift + i) && decide (i < len)) := by
  simp [readBits, mask_getLsbD _ _ h]

theorem writeBits_getLsbD (v : BitVec 32) (len shift : Nat) (new : BitVec 32) (i : Nat) (h : len < 32) (hs : shift + len ≤ 32) (hi : i < 32) :
    (writeBits v len shift new).getLsbD i =
      if shift ≤ i ∧ i < shift + len then new.getLsbD (i - shift) else v.getLsbD i := by
  unfold writeBits
  simp only [BitVec.getLsbD_or, BitVec.getLsbD_and, BitVec.getLsbD_not, BitVec.getLsbD_shiftLeft, mask_getLsbD _ _ h]
  by_cases h1 : i < shift
  · simp [h1, hi]; intro _ _; omega
  · by_cases h2 : i < shift + len
    · have : i - shift < len := by omega
      simp [h1, hi, h2, this]
    · have : ¬ i - shift < len := by omega
      simp [h1, hi, h2, this]

/-- C25: what is written to a field is read back, cut to the field's width. -/
theorem read_write_same (v new : BitVec 32) (len shift : Nat) (h : len < 32) (hs : shift + len ≤ 32) :
    readBits (writeBits v len shift new) len shift = new &&& mask len := by
  apply BitVec.eq_of_getLsbD_eq
  intro i hi
  rw [readBits_getLsbD _ _ _ _ h, BitVec.getLsbD_and, mask_getLsbD _ _ h]
  by_cases h1 : i < len
  · rw [writeBits_getLsbD _ _ _ _ _ h hs (by omega)]
    simp [h1]
  · simp [h1]

/-- C25: writing one field leaves every field that does not overlap with it unchanged. -/
theorem read_write_other (v new : BitVec 32) (len shift len' shift' : Nat) (h : len < 32) (h' : len' < 32)
    (hs : shift + len ≤ 32) (hs' : shift' + len' ≤ 32) (hd : shift + len ≤ shift' ∨ shift' + len' ≤ shift) :
    readBits (writeBits v len shift new) len' shift' = readBits v len' shift' := by
  apply BitVec.eq_of_getLsbD_eq
  intro i hi
  rw [readBits_getLsbD _ _ _ _ h', readBits_getLsbD _ _ _ _ h']
  by_cases h1 : i < len'
  · rw [writeBits_getLsbD _ _ _ _ _ h hs (by omega)]
    rw [if_neg (by omega)]
  · simp [h1]

theorem toNat_mask (len : Nat) (h : len < 32) : (mask len).toNat = 2 ^ len - 1 := by
  have h1 : 2 ^ len < 2 ^ 32 := Nat.pow_lt_pow_right (by omega) h
  have h0 : 1 ≤ 2 ^ len := Nat.one_le_two_pow
  simp [mask, BitVec.toNat_sub, Nat.shiftLeft_eq]
  omega

theorem and_mask (x : BitVec 32) (len : Nat) (h : len < 32) (hx : x.toNat < 2 ^ len) : x &&& mask len = x := by
  apply BitVec.eq_of_toNat_eq
  rw [BitVec.toNat_and, toNat_mask _ h, Nat.and_two_pow_sub_one_eq_mod, Nat.mod_eq_of_lt hx]

theorem readBits_toNat (v : BitVec 32) (len shift : Nat) (h : len < 32) :
    (readBits v len shift).toNat = v.toNat / 2 ^ shift % 2 ^ len := by
  rw [readBits, BitVec.toNat_and, toNat_mask _ h, Nat.and_two_pow_sub_one_eq_mod, BitVec.toNat_ushiftRight, Nat.shiftRight_eq_div_pow]

/-- C25: the accessors read exactly the bits the BTF documentation assigns. -/
theorem header_layout (bt : BtfType) :
    bt.vlen = BtfSpec.vlen bt.info.toNat ∧ bt.kind.toNat = BtfSpec.kind bt.info.toNat ∧
    bt.kflag = decide (BtfSpec.kflag bt.info.toNat = 1) ∧ bt.fwdKind.toNat = BtfSpec.kflag bt.info.toNat ∧
    bt.linkage.toNat = BtfSpec.vlen bt.info.toNat := by
  have hk : (readBits bt.info 1 31).toNat = bt.info.toNat / 2 ^ 31 % 2 ^ 1 := readBits_toNat _ _ _ (by decide)
  refine ⟨?_, ?_, ?_, ?_, ?_⟩
  · simp [BtfType.vlen, vlenLen, vlenShift, readBits_toNat, BtfSpec.vlen]
  · simp [BtfType.kind, kindLen, kindShift, readBits_toNat, BtfSpec.kind]
  · rw [BtfType.kflag, kflagLen, kflagShift, BtfSpec.kflag, ← Nat.pow_one 2, ← hk]
    rw [Bool.eq_iff_iff]; simp [BitVec.toNat_eq]
  · simp [BtfType.fwdKind, kflagLen, kflagShift, readBits_toNat, BtfSpec.kflag]
  · simp [BtfType.linkage, vlenLen, vlenShift, readBits_toNat, BtfSpec.vlen]

/-- C25: setting a field to a value it can hold, and nothing else, changes: each setter is characterised by all four
observable fields of the header. Values: `kind < 32`, `vlen < 65536`, `linkage < 65536`, `fwd kind < 2`. -/
theorem setKind_spec (bt : BtfType) (k : BitVec 8) (hk : k.toNat < 32) :
    (bt.setKind k).kind = k.setWidth 32 ∧ (bt.setKind k).vlen = bt.vlen ∧ (bt.setKind k).kflag = bt.kflag ∧
    (bt.setKind k).fwdKind = bt.fwdKind ∧ (bt.setKind k).linkage = bt.linkage ∧
    (bt.setKind k).nameOff = bt.nameOff ∧ (bt.setKind k).sizeType = bt.sizeType := by
  have hw : (k.setWidth 32).toNat < 2 ^ kindLen := by
    rw [BitVec.toNat_setWidth]; simp [kindLen]; omega
  refine ⟨?_, ?_, ?_, ?_, ?_, rfl, rfl⟩
  · simp only [BtfType.setKind, BtfType.kind]
    rw [read_write_same _ _ _ _ (by decide) (by decide), and_mask _ _ (by decide) hw]
  · simp only [BtfType.setKind, BtfType.vlen]
    rw [read_write_other _ _ _ _ _ _ (by decide) (by decide) (by decide) (by decide) (by decide)]
  · simp only [BtfType.setKind, BtfType.kflag]
    rw [read_write_other _ _ _ _ _ _ (by decide) (by decide) (by decide) (by decide) (by decide)]
  · simp only [BtfType.setKind, BtfType.fwdKind]
    rw [read_write_other _ _ _ _ _ _ (by decide) (by decide) (by decide) (by decide) (by decide)]
  · simp only [BtfType.setKind, BtfType.linkage]
    rw [read_write_other _ _ _ _ _ _ (by decide) (by decide) (by decide) (by decide) (by decide)]

/-- C25. -/
theorem setVlen_spec (bt : BtfType) (n : Nat) (hn : n < 65536) :
    (bt.setVlen n).vlen = n ∧ (bt.setVlen n).kind = bt.kind ∧ (bt.setVlen n).kflag = bt.kflag ∧
    (bt.setVlen n).fwdKind = bt.fwdKind ∧
    (bt.setVlen n).nameOff = bt.nameOff ∧ (bt.setVlen n).sizeType = bt.sizeType := by
  have hw : (BitVec.ofNat 32 n).toNat < 2 ^ vlenLen := by
    rw [BitVec.toNat_ofNat]; simp [vlenLen]; omega
  refine ⟨?_, ?_, ?_, ?_, rfl, rfl⟩
  · simp only [BtfType.setVlen, BtfType.vlen]
    rw [read_write_same _ _ _ _ (by decide) (by decide), and_mask _ _ (by decide) hw, BitVec.toNat_ofNat]
    omega
  · simp only [BtfType.setVlen, BtfType.kind]
    rw [read_write_other _ _ _ _ _ _ (by decide) (by decide) (by decide) (by decide) (by decide)]
  · simp only [BtfType.setVlen, BtfType.kflag]
    rw [read_write_other _ _ _ _ _ _ (by decide) (by decide) (by decide) (by decide) (by decide)]
  · simp only [BtfType.setVlen, BtfType.fwdKind]
    rw [read_write_other _ _ _ _ _ _ (by decide) (by decide) (by decide) (by decide) (by decide)]

/-- C25. -/
theorem setKflag_spec (bt : BtfType) (b : Bool) :
    (bt.setKflag b).kflag = b ∧ (bt.setKflag b).kind = bt.kind ∧ (bt.setKflag b).vlen = bt.vlen ∧
    (bt.setKflag b).linkage = bt.linkage ∧
    (bt.setKflag b).nameOff = bt.nameOff ∧ (bt.setKflag b).sizeType = bt.sizeType := by
  refine ⟨?_, ?_, ?_, ?_, rfl, rfl⟩
  · simp only [BtfType.setKflag, BtfType.kflag]
    rw [read_write_same _ _ _ _ (by decide) (by decide)]
    cases b <;> decide
  · simp only [BtfType.setKflag, BtfType.kind]
    rw [read_write_other _ _ _ _ _ _ (by decide) (by decide) (by decide) (by decide) (by decide)]
  · simp only [BtfType.setKflag, BtfType.vlen]
    rw [read_write_other _ _ _ _ _ _ (by decide) (by decide) (by decide) (by decide) (by decide)]
  · simp only [BtfType.setKflag, BtfType.linkage]
    rw [read_write_other _ _ _ _ _ _ (by decide) (by decide) (by decide) (by decide) (by decide)]

/-- C25. -/
theorem setFwdKind_spec (bt : BtfType) (k : BitVec 32) (hk : k.toNat < 2) :
    (bt.setFwdKind k).fwdKind = k ∧ (bt.setFwdKind k).kind = bt.kind ∧ (bt.setFwdKind k).vlen = bt.vlen ∧
    (bt.setFwdKind k).nameOff = bt.nameOff ∧ (bt.setFwdKind k).sizeType = bt.sizeType := by
  refine ⟨?_, ?_, ?_, rfl, rfl⟩
  · simp only [BtfType.setFwdKind, BtfType.fwdKind]
    rw [read_write_same _ _ _ _ (by decide) (by decide), and_mask _ _ (by decide) (by simpa [kflagLen] using hk)]
  · simp only [BtfType.setFwdKind, BtfType.kind]
    rw [read_write_other _ _ _ _ _ _ (by decide) (by decide) (by decide) (by decide) (by decide)]
  · simp only [BtfType.setFwdKind, BtfType.vlen]
    rw [read_write_other _ _ _ _ _ _ (by decide) (by decide) (by decide) (by decide) (by decide)]

/-- C25. -/
theorem setLinkage_spec (bt : BtfType) (l : BitVec 32) (hl : l.toNat < 65536) :
    (bt.setLinkage l).linkage = l ∧ (bt.setLinkage l).kind = bt.kind ∧ (bt.setLinkage l).kflag = bt.kflag ∧
    (bt.setLinkage l).nameOff = bt.nameOff ∧ (bt.setLinkage l).sizeType = bt.sizeType := by
  refine ⟨?_, ?_, ?_, rfl, rfl⟩
  · simp only [BtfType.setLinkage, BtfType.linkage]
    rw [read_write_same _ _ _ _ (by decide) (by decide), and_mask _ _ (by decide) (by simpa [vlenLen] using hl)]
  · simp only [BtfType.setLinkage, BtfType.kind]
    rw [read_write_other _ _ _ _ _ _ (by decide) (by decide) (by decide) (by decide) (by decide)]
  · simp only [BtfType.setLinkage, BtfType.kflag]
    rw [read_write_other _ _ _ _ _ _ (by decide) (by decide) (by decide) (by decide) (by decide)]

/-- C25: the integer word: the three fields are independent and laid out as documented. -/
theorem int_layout (raw : BitVec 32) :
    (intEncoding raw).toNat = BtfSpec.intEncoding raw.toNat ∧ (intOffset raw).toNat = BtfSpec.intOffset raw.toNat ∧
    (intBits raw).toNat = BtfSpec.intBits raw.toNat := by
  refine ⟨?_, ?_, ?_⟩
  · simp [intEncoding, intEncodingLen, intEncodingShift, readBits_toNat, BtfSpec.intEncoding]
  · simp [intOffset, intOffsetLen, intOffsetShift, readBits_toNat, BtfSpec.intOffset]
  · simp [intBits, intBitsLen, intBitsShift, readBits_toNat, BtfSpec.intBits]

/-- C25. -/
theorem setInt_spec (raw : BitVec 32) (e n : BitVec 8) (o : BitVec 32) (he : e.toNat < 16) (ho : o.toNat < 256) :
    (intEncoding (setIntEncoding raw e) = e.setWidth 32 ∧ intOffset (setIntEncoding raw e) = intOffset raw ∧ intBits (setIntEncoding raw e) = intBits raw) ∧
    (intOffset (setIntOffset raw o) = o ∧ intEncoding (setIntOffset raw o) = intEncoding raw ∧ intBits (setIntOffset raw o) = intBits raw) ∧
    (intBits (setIntBits raw n) = n.setWidth 32 ∧ intEncoding (setIntBits raw n) = intEncoding raw ∧ intOffset (setIntBits raw n) = intOffset raw) := by
  have h1 : (e.setWidth 32).toNat < 2 ^ intEncodingLen := by rw [BitVec.toNat_setWidth]; simp [intEncodingLen]; omega
  have h2 : o.toNat < 2 ^ intOffsetLen := by simpa [intOffsetLen] using ho
  have h3 : (n.setWidth 32).toNat < 2 ^ intBitsLen := by rw [BitVec.toNat_setWidth]; simp [intBitsLen]; omega
  refine ⟨⟨?_, ?_, ?_⟩, ⟨?_, ?_, ?_⟩, ⟨?_, ?_, ?_⟩⟩ <;>
    simp only [intEncoding, intOffset, intBits, setIntEncoding, setIntOffset, setIntBits]
  · rw [read_write_same _ _ _ _ (by decide) (by decide), and_mask _ _ (by decide) h1]
  · rw [read_write_other _ _ _ _ _ _ (by decide) (by decide) (by decide) (by decide) (by decide)]
  · rw [read_write_other _ _ _ _ _ _ (by decide) (by decide) (by decide) (by decide) (by decide)]
  · rw [read_write_same _ _ _ _ (by decide) (by decide), and_mask _ _ (by decide) h2]
  · rw [read_write_other _ _ _ _ _ _ (by decide) (by decide) (by decide) (by decide) (by decide)]
  · rw [read_write_other _ _ _ _ _ _ (by decide) (by decide) (by decide) (by decide) (by decide)]
  · rw [read_write_same _ _ _ _ (by decide) (by decide), and_mask _ _ (by decide) h3]
  · rw [read_write_other _ _ _ _ _ _ (by decide) (by decide) (by decide) (by decide) (by decide)]
  · rw [read_write_other _ _ _ _ _ _ (by decide) (by decide) (by decide) (by decide) (by decide)]

theorem take32_put32 (bo : ByteOrder) (x : BitVec 32) (rest : Bytes) : take32 bo (bo.put32 x ++ rest) = some (x, rest) := by
  obtain ⟨a, b, c, d, h, h'⟩ := get32_put32 bo x
  rw [h]; simp [take32, h']

/-- C25: a header survives encoding and decoding in either byte order, followed by any data. -/
theorem header_roundtrip (bo : ByteOrder) (bt : BtfType) (rest : Bytes) :
    unmarshalBtfType bo (bt.encode bo ++ rest) = some (bt, rest) := by
  simp [unmarshalBtfType, BtfType.encode, List.append_assoc, take32_put32]

/-- Values that do not fit are silently cut, not rejected: a struct with 65536 members gets vlen 0. -/
theorem setVlen_truncates (bt : BtfType) (n : Nat) : (bt.setVlen n).vlen = n % 65536 := by
  simp only [BtfType.setVlen, BtfType.vlen]
  rw [read_write_same _ _ _ _ (by decide) (by decide), BitVec.toNat_and, toNat_mask _ (by decide), Nat.and_two_pow_sub_one_eq_mod,
    BitVec.toNat_ofNat]
  simp [vlenLen]

example : let bt := (((⟨7, 0, 0⟩ : BtfType).setKind kindStruct).setVlen 3).setKflag true
    bt.kind = 4 ∧ bt.vlen = 3 ∧ bt.kflag = true ∧ bt.nameOff = 7 ∧ bt.info = 0x84000003 := by decide
example : setIntBits (setIntEncoding 0 1) 32 = 0x01000020 := by decide

end Ebpf.Btf
