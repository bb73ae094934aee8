import Verif.Props.Instruction
/-!
# C03, C05: encode then decode
-/
set_option linter.unusedSimpArgs false
namespace Ebpf.Asm
open OpCode

theorem fits_signExtend (c : BitVec 64) (h : Spec.fitsImm32 c) : (c.setWidth 32 : BitVec 32).signExtend 64 = c := by
  obtain ⟨h1, h2⟩ := h
  apply BitVec.eq_of_toInt_eq
  rw [BitVec.toInt_signExtend_of_le (by decide), BitVec.toInt_setWidth]
  have h3 : c.toInt = Int.bmod c.toNat (2 ^ 64) := BitVec.toInt_eq_toNat_bmod c
  have e : ((2:Int) ^ 31) = 2147483648 := by decide
  rw [e] at h1 h2
  have : (c.toNat : Int).bmod (2 ^ 32) = (c.toInt).bmod (2^32) := by
    rw [h3]
    rw [Int.bmod_bmod_of_dvd (by decide : (2 ^ 32 : Nat) ∣ 2 ^ 64)]
  rw [this, Int.bmod_eq_of_le (by omega) (by omega)]

theorem byte_of_lt (op : BitVec 32) (h : op.toNat < 256) : op = (op.setWidth 8 : BitVec 8).setWidth 32 := by
  apply BitVec.eq_of_toNat_eq
  simp only [BitVec.toNat_setWidth]
  omega

/-- What decoding sees of an encoded non-double-wide instruction. -/
theorem decode_of_parts (bo : ByteOrder) (plat : String) (i : Ins) (k : Ins) (imm : BitVec 32) (b : Byte) (rest : Bytes)
    (hd : i.dst.toNat < 16) (hs : i.src.toNat < 16)
    (hinv : i.op ≠ InvalidOpCode) (hnd : i.op.isDWordLoad = false)
    (hm : marshalClass plat i = .ok (k, imm)) (hk : k.op.bpfOpCode = some b)
    (hu : unmarshalClass plat ⟨b.setWidth 32, i.dst, i.src, k.off, imm.signExtend 64⟩ = .ok i) :
    ∃ w, marshal plat bo i = .ok w ∧ w.length = 8 ∧ unmarshal bo plat (w ++ rest) = .ok (i, rest) := by
  obtain ⟨a0, a1, ha, ha'⟩ := get16_put16 bo k.off
  obtain ⟨c0, c1, c2, c3, hc, hc'⟩ := get32_put32 bo imm
  refine ⟨[b, newBPFRegisters bo i.dst i.src, a0, a1, c0, c1, c2, c3], ?_, rfl, ?_⟩
  · unfold marshal
    rw [if_neg hinv, hm]
    simp only
    rw [hk]
    simp only
    rw [if_neg (by rw [hnd]; simp), ha, hc]
    rfl
  · unfold unmarshal
    simp only [List.cons_append, List.nil_append]
    have : decodeHeader bo b (newBPFRegisters bo i.dst i.src) a0 a1 c0 c1 c2 c3
        = ⟨b.setWidth 32, i.dst, i.src, k.off, imm.signExtend 64⟩ := by
      unfold decodeHeader
      rw [split_newRegs bo _ _ hd hs, ha', hc']
    rw [this, hu]
    simp [hnd]

theorem decode_dword (bo : ByteOrder) (plat : String) (i : Ins) (rest : Bytes)
    (hop : i.op = 0x18#32) (hd : i.dst.toNat < 16) (hs : i.src.toNat < 16) :
    ∃ w, marshal plat bo i = .ok w ∧ w.length = 16 ∧ unmarshal bo plat (w ++ rest) = .ok (i, rest) := by
  obtain ⟨a0, a1, ha, ha'⟩ := get16_put16 bo i.off
  obtain ⟨c0, c1, c2, c3, hc, hc'⟩ := get32_put32 bo (i.cons.setWidth 32)
  obtain ⟨z0, z1, z2, z3, hz, hz'⟩ := get32_put32 bo 0#32
  obtain ⟨e0, e1, e2, e3, he, he'⟩ := get32_put32 bo ((i.cons.sshiftRight 32).setWidth 32)
  have n1 : ∀ d s : BitVec 8, ∀ o c, Ins.isBuiltinCall ⟨0x18#32, d, s, o, c⟩ = false := by
    intro d s o c
    unfold Ins.isBuiltinCall
    have : (OpCode.jumpOp 0x18#32 == Call) = false := by decide
    simp [this]
  have hi : i = ⟨0x18#32, i.dst, i.src, i.off, i.cons⟩ := by rw [← hop]
  have hmc : marshalClass plat i = .ok (i, i.cons.setWidth 32) := by
    have n2 : clsIsALU i.op.cls = false := by rw [hop]; decide
    have n3 : ¬ (i.op.atomicOp ≠ InvalidAtomic) := by rw [hop]; decide
    have n1' : i.isBuiltinCall = false := by rw [hi]; exact n1 _ _ _ _
    unfold marshalClass
    simp only [n1', n2, Bool.false_eq_true, if_false, if_neg n3]
  have hb : bpfOpCode i.op = some 0x18#8 := by rw [hop]; decide
  refine ⟨[0x18#8, newBPFRegisters bo i.dst i.src, a0, a1, c0, c1, c2, c3, z0, z1, z2, z3, e0, e1, e2, e3], ?_, rfl, ?_⟩
  · unfold marshal
    rw [if_neg (by rw [hop]; decide), hmc]
    simp only
    rw [hb]
    simp only
    rw [if_pos (by rw [hop]; decide), ha, hc, hz, he]
    rfl
  · unfold unmarshal
    simp only [List.cons_append, List.nil_append]
    have hh : decodeHeader bo 0x18#8 (newBPFRegisters bo i.dst i.src) a0 a1 c0 c1 c2 c3
        = ⟨0x18#32, i.dst, i.src, i.off, (i.cons.setWidth 32 : BitVec 32).signExtend 64⟩ := by
      unfold decodeHeader
      rw [split_newRegs bo _ _ hd hs, ha', hc']
      rfl
    have hu : unmarshalClass plat ⟨0x18#32, i.dst, i.src, i.off, (i.cons.setWidth 32 : BitVec 32).signExtend 64⟩
        = .ok ⟨0x18#32, i.dst, i.src, i.off, (i.cons.setWidth 32 : BitVec 32).signExtend 64⟩ := by
      unfold unmarshalClass
      have n2 : clsIsALU (OpCode.cls 0x18#32) = false := by decide
      have n3 : (OpCode.cls 0x18#32 == StXClass && OpCode.mode 0x18#32 == AtomicMode) = false := by decide
      simp only [n1, n2, n3, Bool.false_eq_true, if_false]
    rw [hh, hu]
    have hdw : isDWordLoad 0x18#32 = true := by decide
    simp only [hdw, hz', he', Bool.not_true, Bool.false_eq_true, if_false, ne_eq, not_true_eq_false,
      signExtend_setWidth, dword_join]
    rw [← hi]

/-- numeric tag of the supported platforms, used to instantiate `Spec.WellFormed` -/
def tagNat (plat : String) : Option Nat :=
  if plat = "linux" then some 0 else if plat = "windows" then some (2 ^ 28) else none

theorem wf_helper_enc (plat : String) (t n : Nat) (ht : tagNat plat = some t) (hn : n < 2 ^ 28) :
    Platform.encodeConstant plat (BitVec.ofNat 32 n) = some (BitVec.ofNat 32 (t + n)) := by
  unfold tagNat at ht
  have hc : ¬ ((BitVec.ofNat 32 n) >>> 28 > 0#32) := by
    intro h; have := (shift28_iff _).1 h
    simp only [BitVec.toNat_ofNat] at this; omega
  unfold Platform.encodeConstant
  rw [if_neg hc]
  unfold Platform.tagForPlatform Platform.Linux Platform.Windows
  by_cases h1 : plat = "linux"
  · rw [if_pos h1] at ht
    simp only [Option.some.injEq] at ht; subst ht
    rw [if_pos h1]
    simp [Platform.LinuxTag]
  · rw [if_neg h1] at ht
    rw [if_neg h1]
    by_cases h2 : plat = "windows"
    · rw [if_pos h2] at ht
      simp only [Option.some.injEq] at ht; subst ht
      rw [if_pos h2]
      simp only [Option.map_some, Option.some.injEq]
      apply BitVec.eq_of_toNat_eq
      rw [BitVec.toNat_or, BitVec.toNat_ofNat, BitVec.toNat_ofNat, Nat.mod_eq_of_lt (by omega), Nat.mod_eq_of_lt (by omega)]
      have := Nat.two_pow_add_eq_or_of_lt hn 1
      simp only [Platform.WindowsTag] at *
      simpa using this.symm
    · rw [if_neg h2] at ht; cases ht

/-- Base operation, extended operation and wire offset of the extended ALU operations. -/
abbrev extTable (base e off : BitVec 16) : Prop :=
  (base = Div ∧ e = SDiv ∧ off = 1#16) ∨ (base = Mod ∧ e = SMod ∧ off = 1#16)
  ∨ (base = Mov ∧ e = MovSX8 ∧ off = 8#16) ∨ (base = Mov ∧ e = MovSX16 ∧ off = 16#16)
  ∨ (base = Mov ∧ e = MovSX32 ∧ off = 32#16)

theorem unmarshalALU_ext (b : Byte) (base e off : BitVec 16) (ht : extTable base e off)
    (hb : aluOp (b.setWidth 32) = base) (d s c) :
    unmarshalALU ⟨b.setWidth 32, d, s, off, c⟩ = ⟨setALUOp (b.setWidth 32) e, d, s, 0#16, c⟩ := by
  have n1 : Mod ≠ Div := by decide
  have n2 : Mov ≠ Div := by decide
  have n3 : Mov ≠ Mod := by decide
  rcases ht with ⟨h1, h2, h3⟩ | ⟨h1, h2, h3⟩ | ⟨h1, h2, h3⟩ | ⟨h1, h2, h3⟩ | ⟨h1, h2, h3⟩ <;>
  · subst h1; subst h2; subst h3
    unfold unmarshalALU
    simp [hb, n1, n2, n3]

theorem marshalALU_ext (b : Byte) (base e off : BitVec 16) (ht : extTable base e off)
    (hE : ExtOK (b.setWidth 32) base e) (d s c) :
    marshalALU ⟨setALUOp (b.setWidth 32) e, d, s, 0#16, c⟩ = .ok ⟨b.setWidth 32, d, s, off, c⟩ := by
  obtain ⟨e1, e2, e3, e4, e5, e6⟩ := hE
  have n1 : SMod ≠ SDiv := by decide
  have n2 : MovSX8 ≠ SDiv ∧ MovSX8 ≠ SMod := by decide
  have n3 : MovSX16 ≠ SDiv ∧ MovSX16 ≠ SMod ∧ MovSX16 ≠ MovSX8 := by decide
  have n4 : MovSX32 ≠ SDiv ∧ MovSX32 ≠ SMod ∧ MovSX32 ≠ MovSX8 ∧ MovSX32 ≠ MovSX16 := by decide
  rcases ht with ⟨h1, h2, h3⟩ | ⟨h1, h2, h3⟩ | ⟨h1, h2, h3⟩ | ⟨h1, h2, h3⟩ | ⟨h1, h2, h3⟩ <;>
  · subst h1; subst h2; subst h3
    unfold marshalALU
    simp [e2, e3, n1, n2, n3, n4]

/-- C03: encoding a well-formed instruction succeeds and decoding the bytes, followed by anything,
returns the instruction and leaves exactly what followed. -/
theorem encode_decode (bo : ByteOrder) (plat : String) (t : Nat) (ht : tagNat plat = some t) (i : Ins) (rest : Bytes)
    (hw : Spec.WellFormed t i.op i.dst i.src i.off i.cons) :
    ∃ w, marshal plat bo i = .ok w ∧ w.length = 8 * i.width ∧ unmarshal bo plat (w ++ rest) = .ok (i, rest) := by
  have fin : ∀ (hnd : i.op.isDWordLoad = false),
      (∃ w, marshal plat bo i = .ok w ∧ w.length = 8 ∧ unmarshal bo plat (w ++ rest) = .ok (i, rest)) →
      ∃ w, marshal plat bo i = .ok w ∧ w.length = 8 * i.width ∧ unmarshal bo plat (w ++ rest) = .ok (i, rest) := by
    rintro hnd ⟨w, h1, h2, h3⟩
    exact ⟨w, h1, by rw [h2]; simp [Ins.width, rawInstructions, hnd], h3⟩
  obtain ⟨op, d, s, off, c⟩ := i
  simp only at hw
  cases hw with
  | dword _ _ _ _ hd hs =>
    obtain ⟨w, h1, h2, h3⟩ := decode_dword bo plat ⟨0x18#32, d, s, off, c⟩ rest rfl hd hs
    exact ⟨w, h1, by rw [h2]; rfl, h3⟩
  | helper _ _ _ hop hc =>
    obtain ⟨n, hn, hcn⟩ := hc
    have hnd : isDWordLoad op = false := by rcases hop with h | h <;> subst h <;> decide
    have hbc : Ins.isBuiltinCall ⟨op, 0#8, 0#8, off, c⟩ = true := by
      have j1 : OpCode.jumpOp 0x85#32 = Call := by decide
      have j2 : OpCode.jumpOp 0x8d#32 = Call := by decide
      unfold Ins.isBuiltinCall
      rcases hop with h | h <;> subst h <;> simp [j1, j2]
    have ht31 : t ≤ 2 ^ 28 := by
      unfold tagNat at ht
      split at ht
      · cases ht; omega
      · split at ht
        · cases ht; omega
        · cases ht
    have henc := wf_helper_enc plat t n ht hn
    have hc32 : (c.setWidth 32 : BitVec 32) = BitVec.ofNat 32 (t + n) := by
      apply BitVec.eq_of_toNat_eq; simp only [BitVec.toNat_setWidth, BitVec.toNat_ofNat, hcn]
    have hdec := decode_encodeConstant _ _ _ henc
    refine fin hnd ?_
    obtain ⟨b, hb8, hbop⟩ : ∃ b : Byte, bpfOpCode op = some b ∧ b.setWidth 32 = op := by
      rcases hop with h | h <;> subst h
      · exact ⟨0x85#8, by decide, by decide⟩
      · exact ⟨0x8d#8, by decide, by decide⟩
    refine decode_of_parts bo plat ⟨op, 0#8, 0#8, off, c⟩ ⟨op, 0#8, 0#8, off, c⟩ (BitVec.ofNat 32 n) b rest
      (show (0#8 : BitVec 8).toNat < 16 by decide) (show (0#8 : BitVec 8).toNat < 16 by decide) ?_ hnd ?_ hb8 ?_
    · show op ≠ InvalidOpCode
      rcases hop with h | h <;> subst h <;> decide
    · unfold marshalClass
      simp only [hbc, if_true, hc32, hdec]
      simp
    · rw [hbop]
      unfold unmarshalClass
      have hbc' : Ins.isBuiltinCall ⟨op, 0#8, 0#8, off, (BitVec.ofNat 32 n).signExtend 64⟩ = true := hbc
      have hnn : 0 ≤ ((BitVec.ofNat 32 n).signExtend 64).toInt := by
        rw [BitVec.toInt_signExtend_of_le (by decide), BitVec.toInt_eq_toNat_of_lt
          (by simp only [BitVec.toNat_ofNat]; omega)]
        omega
      rw [if_pos hbc', if_pos hnn, signExtend_setWidth, henc]
      simp only [Except.ok.injEq, Ins.mk.injEq, true_and]
      apply BitVec.eq_of_toNat_eq
      simp only [BitVec.toNat_setWidth, BitVec.toNat_ofNat, hcn]
      omega
  | alu _ _ _ _ hop hcls hd hs hc =>
    have e := byte_of_lt op hop
    generalize (op.setWidth 8 : BitVec 8) = b at e
    subst e
    have hb : (b.setWidth 32 : BitVec 32).toNat = b.toNat := by simp; omega
    rw [hb] at hcls
    have ha := (aluByte_iff b).2 hcls
    have f6 := alu_facts6 b ha
    have f7 := alu_facts7 b ha
    refine fin f7.2 (decode_of_parts bo plat ⟨_, d, s, 0#16, c⟩ ⟨b.setWidth 32, d, s, 0#16, c⟩ (c.setWidth 32) b rest hd hs
      (byte_ne_invalid b) f7.2 ?_ (bpfOpCode_byte b) ?_)
    · unfold marshalClass
      have nb : Ins.isBuiltinCall ⟨b.setWidth 32, d, s, 0#16, c⟩ = false := by
        unfold Ins.isBuiltinCall
        have : (jumpOp (b.setWidth 32) == Call) = false := by rw [beq_eq_false_iff_ne]; exact f7.1
        simp [this]
      simp only [nb, Bool.false_eq_true, if_false, ha, if_true]
      unfold marshalALU
      simp only
      rw [if_neg f6.1, if_neg f6.2.1, if_neg f6.2.2.1, if_neg f6.2.2.2.1, if_neg f6.2.2.2.2]
      rfl
    · unfold unmarshalClass
      have nb : ∀ c', Ins.isBuiltinCall ⟨b.setWidth 32, d, s, 0#16, c'⟩ = false := by
        intro c'
        unfold Ins.isBuiltinCall
        have : (jumpOp (b.setWidth 32) == Call) = false := by rw [beq_eq_false_iff_ne]; exact f7.1
        simp [this]
      simp only [nb, Bool.false_eq_true, if_false, ha, if_true, fits_signExtend c hc]
      unfold unmarshalALU
      simp
  | aluExt _ _ _ _ hcls hext hd hs hc =>
    -- 20 concrete opcodes
    have hlow : op.toNat % 16 = 4 ∨ op.toNat % 16 = 7 ∨ op.toNat % 16 = 12 ∨ op.toNat % 16 = 15 := by omega
    have key : ∀ (base e : BitVec 16) (b : Byte) (off' : BitVec 16),
        op = setALUOp (b.setWidth 32) e → ExtOK (b.setWidth 32) base e →
        aluOp (b.setWidth 32) = base → extTable base e off' →
        clsIsALU (cls (b.setWidth 32)) = true →
        ∃ w, marshal plat bo ⟨op, d, s, 0#16, c⟩ = .ok w ∧ w.length = 8 * Ins.width ⟨op, d, s, 0#16, c⟩ ∧
          unmarshal bo plat (w ++ rest) = .ok (⟨op, d, s, 0#16, c⟩, rest) := by
      intro base e b off' hop hE hbase htab hab
      have hu := unmarshalALU_ext b base e off' htab hbase d s c
      have hm := marshalALU_ext b base e off' htab hE d s c
      rw [← hop] at hu hm
      obtain ⟨e1, e2, e3, e4, e5, e6⟩ := hE
      rw [← hop] at e1 e2 e4 e5 e6
      have f7 := alu_facts7 b hab
      refine fin e6 (decode_of_parts bo plat ⟨op, d, s, 0#16, c⟩ ⟨b.setWidth 32, d, s, off', c⟩ (c.setWidth 32) b rest hd hs
        e4 e6 ?_ (bpfOpCode_byte b) ?_)
      · unfold marshalClass
        have nb : Ins.isBuiltinCall ⟨op, d, s, 0#16, c⟩ = false := by
          unfold Ins.isBuiltinCall
          have : (jumpOp op == Call) = false := by rw [beq_eq_false_iff_ne]; exact e5
          simp [this]
        simp only [nb, Bool.false_eq_true, if_false, e1, if_true, hm]
        rfl
      · unfold unmarshalClass
        have nb : ∀ c', Ins.isBuiltinCall ⟨b.setWidth 32, d, s, off', c'⟩ = false := by
          intro c'
          unfold Ins.isBuiltinCall
          have : (jumpOp (b.setWidth 32) == Call) = false := by rw [beq_eq_false_iff_ne]; exact f7.1
          simp [this]
        simp only [nb, Bool.false_eq_true, if_false, hab, if_true, fits_signExtend c hc, hu]
    have opEq : ∀ n, op.toNat = n → op = BitVec.ofNat 32 n := by
      intro n hn; apply BitVec.eq_of_toNat_eq; rw [BitVec.toNat_ofNat, ← hn]
      have := op.isLt; omega
    rcases hext with h | h | h | h | h <;> rcases hlow with l | l | l | l
    · have := opEq 0x134 (by omega); subst this
      exact key Div SDiv 0x34#8 1#16 (by decide) (by decide) (by decide) (by decide) (by decide)
    · have := opEq 0x137 (by omega); subst this
      exact key Div SDiv 0x37#8 1#16 (by decide) (by decide) (by decide) (by decide) (by decide)
    · have := opEq 0x13c (by omega); subst this
      exact key Div SDiv 0x3c#8 1#16 (by decide) (by decide) (by decide) (by decide) (by decide)
    · have := opEq 0x13f (by omega); subst this
      exact key Div SDiv 0x3f#8 1#16 (by decide) (by decide) (by decide) (by decide) (by decide)
    · have := opEq 0x194 (by omega); subst this
      exact key Mod SMod 0x94#8 1#16 (by decide) (by decide) (by decide) (by decide) (by decide)
    · have := opEq 0x197 (by omega); subst this
      exact key Mod SMod 0x97#8 1#16 (by decide) (by decide) (by decide) (by decide) (by decide)
    · have := opEq 0x19c (by omega); subst this
      exact key Mod SMod 0x9c#8 1#16 (by decide) (by decide) (by decide) (by decide) (by decide)
    · have := opEq 0x19f (by omega); subst this
      exact key Mod SMod 0x9f#8 1#16 (by decide) (by decide) (by decide) (by decide) (by decide)
    · have := opEq 0x1b4 (by omega); subst this
      exact key Mov MovSX8 0xb4#8 8#16 (by decide) (by decide) (by decide) (by decide) (by decide)
    · have := opEq 0x1b7 (by omega); subst this
      exact key Mov MovSX8 0xb7#8 8#16 (by decide) (by decide) (by decide) (by decide) (by decide)
    · have := opEq 0x1bc (by omega); subst this
      exact key Mov MovSX8 0xbc#8 8#16 (by decide) (by decide) (by decide) (by decide) (by decide)
    · have := opEq 0x1bf (by omega); subst this
      exact key Mov MovSX8 0xbf#8 8#16 (by decide) (by decide) (by decide) (by decide) (by decide)
    · have := opEq 0x2b4 (by omega); subst this
      exact key Mov MovSX16 0xb4#8 16#16 (by decide) (by decide) (by decide) (by decide) (by decide)
    · have := opEq 0x2b7 (by omega); subst this
      exact key Mov MovSX16 0xb7#8 16#16 (by decide) (by decide) (by decide) (by decide) (by decide)
    · have := opEq 0x2bc (by omega); subst this
      exact key Mov MovSX16 0xbc#8 16#16 (by decide) (by decide) (by decide) (by decide) (by decide)
    · have := opEq 0x2bf (by omega); subst this
      exact key Mov MovSX16 0xbf#8 16#16 (by decide) (by decide) (by decide) (by decide) (by decide)
    · have := opEq 0x3b4 (by omega); subst this
      exact key Mov MovSX32 0xb4#8 32#16 (by decide) (by decide) (by decide) (by decide) (by decide)
    · have := opEq 0x3b7 (by omega); subst this
      exact key Mov MovSX32 0xb7#8 32#16 (by decide) (by decide) (by decide) (by decide) (by decide)
    · have := opEq 0x3bc (by omega); subst this
      exact key Mov MovSX32 0xbc#8 32#16 (by decide) (by decide) (by decide) (by decide) (by decide)
    · have := opEq 0x3bf (by omega); subst this
      exact key Mov MovSX32 0xbf#8 32#16 (by decide) (by decide) (by decide) (by decide) (by decide)
  | atomic _ _ _ _ _ h3 h6 h17 hco hd hs hc =>
    -- split the opcode into its wire byte and the atomic bits
    have hsplit : op = ((op.setWidth 8 : BitVec 8).setWidth 32) ||| (op &&& atomicMask) := by
      apply BitVec.eq_of_getLsbD_eq
      intro i hi
      rw [BitVec.getLsbD_or, BitVec.getLsbD_and, BitVec.getLsbD_setWidth, BitVec.getLsbD_setWidth]
      have am : ∀ j : Fin 32, (atomicMask).getLsbD j.1 = decide (8 ≤ j.1 ∧ j.1 < 17) := by decide
      rw [am ⟨i, hi⟩]
      by_cases h : i < 8
      · simp [h, hi]; omega
      · by_cases h' : i < 17
        · have : 8 ≤ i := by omega
          simp [h, h', this]
        · have : op.getLsbD i = false := by
            apply BitVec.getLsbD_eq_getElem hi |>.trans
            rw [BitVec.getElem_eq_testBit_toNat]
            apply Nat.testBit_lt_two_pow
            exact Nat.lt_of_lt_of_le h17 (Nat.pow_le_pow_right (by decide) (by omega))
          simp [this]
    have hmask : (op &&& atomicMask) &&& ~~~atomicMask = 0 := by
      ext i hi
      simp only [BitVec.getElem_and, BitVec.getElem_not]
      cases atomicMask[i] <;> simp
    have hbn : (op.setWidth 8 : BitVec 8).toNat = op.toNat % 256 := by simp
    have hcls : cls ((op.setWidth 8 : BitVec 8).setWidth 32) = StXClass
        ∧ mode ((op.setWidth 8 : BitVec 8).setWidth 32) = AtomicMode := by
      have key : ∀ b : BitVec 8, b.toNat % 8 = 3 → b.toNat / 32 = 6 →
          cls (b.setWidth 32) = StXClass ∧ mode (b.setWidth 32) = AtomicMode := by decide +kernel
      exact key _ (by rw [hbn]; omega) (by rw [hbn]; omega)
    have F := atomic_facts (op.setWidth 8 : BitVec 8) (op &&& atomicMask) hmask hcls.1 hcls.2
    simp only at F
    rw [← hsplit] at F
    obtain ⟨f1, f2, f3, f4, f5, f6, f7, f8⟩ := F
    have hcm : ((c <<< 8).setWidth 32 : BitVec 32) &&& atomicMask = op &&& atomicMask := by
      apply BitVec.eq_of_getLsbD_eq
      intro i hi
      rw [BitVec.getLsbD_and, BitVec.getLsbD_and, BitVec.getLsbD_setWidth, BitVec.getLsbD_shiftLeft]
      have am : ∀ j : Fin 32, (atomicMask).getLsbD j.1 = decide (8 ≤ j.1 ∧ j.1 < 17) := by decide
      rw [am ⟨i, hi⟩]
      by_cases h : 8 ≤ i ∧ i < 17
      · have e : op.getLsbD i = c.getLsbD (i - 8) := by
          have t1 : op.getLsbD i = (op.toNat / 2 ^ 8).testBit (i - 8) := by
            rw [Nat.testBit_div_two_pow]
            have : 8 + (i - 8) = i := by omega
            rw [Nat.add_comm, this]; rfl
          have t2 : c.getLsbD (i - 8) = (c.toNat % 2 ^ 9).testBit (i - 8) := by
            rw [Nat.testBit_mod_two_pow]
            have : i - 8 < 9 := by omega
            simp [this]; rfl
          rw [t1, t2, hco]
        have h1 : ¬ (i < 8) := by omega
        have h2 : i < 64 := by omega
        rw [e]; simp [h, h1, h2, hi]
      · simp [h]
    refine fin f5 (decode_of_parts bo plat ⟨op, d, s, off, c⟩
      ⟨op &&& ~~~atomicMask, d, s, off, (atomicOp op >>> 8).setWidth 64⟩ (c.setWidth 32) (op.setWidth 8) rest hd hs
      f8 f5 ?_ ?_ ?_)
    · unfold marshalClass
      have nb : Ins.isBuiltinCall ⟨op, d, s, off, c⟩ = false := by
        unfold Ins.isBuiltinCall
        have : (jumpOp op == Call) = false := by rw [f6]; decide
        simp [this]
      have na : atomicOp op ≠ InvalidAtomic := by
        rw [f3]; intro hh
        have : InvalidAtomic &&& ~~~atomicMask = 0 := by rw [← hh]; exact hmask
        exact absurd this (by decide)
      simp only [nb, Bool.false_eq_true, if_false, f7, if_pos na]
    · show bpfOpCode (op &&& ~~~atomicMask) = _
      rw [f4]; exact bpfOpCode_byte _
    · unfold unmarshalClass
      have nb : ∀ c', Ins.isBuiltinCall ⟨(op.setWidth 8 : BitVec 8).setWidth 32, d, s, off, c'⟩ = false := by
        intro c'
        unfold Ins.isBuiltinCall
        have : (jumpOp ((op.setWidth 8 : BitVec 8).setWidth 32) == Call) = false := by
          have : clsIsJump StXClass = false := by decide
          unfold jumpOp; rw [hcls.1]; simp [this]; decide
        simp [this]
      have n2 : clsIsALU (cls ((op.setWidth 8 : BitVec 8).setWidth 32)) = false := by rw [hcls.1]; decide
      have n3 : (cls ((op.setWidth 8 : BitVec 8).setWidth 32) == StXClass
        && mode ((op.setWidth 8 : BitVec 8).setWidth 32) == AtomicMode) = true := by rw [hcls.1, hcls.2]; decide
      simp only [nb, n2, n3, Bool.false_eq_true, if_false, if_true, fits_signExtend c hc, hcm]
      rw [← hsplit]
  | other _ _ _ _ _ hop hne halu hat hcall hd hs hc =>
    have e := byte_of_lt op hop
    generalize (op.setWidth 8 : BitVec 8) = b at e
    subst e
    have hb : (b.setWidth 32 : BitVec 32).toNat = b.toNat := by simp; omega
    rw [hb] at halu hat hcall
    have ha : clsIsALU (cls (b.setWidth 32)) = false := by
      rw [← Bool.not_eq_true]; intro h; exact halu ((aluByte_iff b).1 h)
    have hnd : isDWordLoad (b.setWidth 32) = false := by
      unfold isDWordLoad; rw [beq_eq_false_iff_ne]; exact hne
    have hatm : ¬ (cls (b.setWidth 32) = StXClass ∧ mode (b.setWidth 32) = AtomicMode) := by
      have key : ∀ b : BitVec 8, ¬ (b.toNat % 8 = 3 ∧ b.toNat / 32 = 6) →
          ¬ (cls (b.setWidth 32) = StXClass ∧ mode (b.setWidth 32) = AtomicMode) := by decide +kernel
      exact key b hat
    have nb : ∀ o c', Ins.isBuiltinCall ⟨b.setWidth 32, d, s, o, c'⟩ = false := by
      intro o c'
      unfold Ins.isBuiltinCall
      rw [← Bool.not_eq_true]
      simp only [Bool.and_eq_true, beq_iff_eq]
      rintro ⟨⟨h1, h2⟩, h3⟩
      have := (helper_iff b).1 h1
      exact hcall ⟨this.1, this.2, h3, h2⟩
    have nat : ¬ (atomicOp (b.setWidth 32) ≠ InvalidAtomic) := by
      rw [Classical.not_not]; unfold atomicOp; rw [if_pos]
      simp only [Bool.or_eq_true, bne_iff_ne]
      by_cases hcc : cls (b.setWidth 32) = StXClass
      · exact Or.inr (fun hm => hatm ⟨hcc, hm⟩)
      · exact Or.inl hcc
    refine fin hnd (decode_of_parts bo plat ⟨_, d, s, off, c⟩ ⟨b.setWidth 32, d, s, off, c⟩ (c.setWidth 32) b rest hd hs
      (byte_ne_invalid b) hnd ?_ (bpfOpCode_byte b) ?_)
    · unfold marshalClass
      simp only [nb, Bool.false_eq_true, if_false, ha, if_neg nat]
    · unfold unmarshalClass
      have n3 : (cls (b.setWidth 32) == StXClass && mode (b.setWidth 32) == AtomicMode) = false := by
        rw [← Bool.not_eq_true]
        simp only [Bool.and_eq_true, beq_iff_eq]; exact hatm
      simp only [nb, ha, n3, Bool.false_eq_true, if_false, fits_signExtend c hc]

/-- Non-vacuity of `encode_decode`: `r1 s/= r2`, a helper call on windows, an atomic fetch-add. -/
example : Spec.WellFormed 0 0x13f#32 1#8 2#8 0#16 0#64 :=
  .aluExt _ _ _ _ (by decide) (by decide) (by decide) (by decide) ⟨by decide, by decide⟩
example : Spec.WellFormed (2 ^ 28) 0x85#32 0#8 0#8 0#16 0x10000007#64 :=
  .helper _ _ _ (Or.inl rfl) ⟨7, by decide, by decide⟩
example : Spec.WellFormed 0 0x1db#32 1#8 2#8 8#16 1#64 :=
  .atomic _ _ _ _ _ (by decide) (by decide) (by decide) (by decide) (by decide) (by decide) ⟨by decide, by decide⟩

/-! ## C05 -/

/-- asm/load_store.go:97-110 `AtomicOp.OpCode` and 112-120 `AtomicOp.Mem`: the instruction built for
an atomic operation, with constant zero (the constructor does not set `Constant`). The rejection
of 8 and 16 bit read-modify-write operations is left to the caller of this definition. -/
def atomicMem (a : BitVec 32) (sz : BitVec 8) (dst src : BitVec 8) (off : BitVec 16) : Ins :=
  { op := OpCode.setAtomicOp (OpCode.setSize (OpCode.setMode 0x03#32 AtomicMode) sz) a,
    dst := dst, src := src, off := off, cons := 0#64 }

/-- C05, full statement: an encoded atomic instruction decodes to the same opcode (and hence the
same atomic operation). Ranges over every atomic opcode (class 3, mode 6, nine operation bits). -/
def AtomicSurvives : Prop :=
  ∀ (bo : ByteOrder) (plat : String) (i : Ins) (w : Bytes),
    i.op.toNat % 8 = 3 → i.op.toNat / 32 % 8 = 6 → i.op.toNat < 2 ^ 17 →
    i.dst.toNat < 16 → i.src.toNat < 16 →
    marshal plat bo i = .ok w → ∃ j, unmarshal bo plat w = .ok (j, []) ∧ j.op = i.op

/-- C05 is false: `FetchAdd.Mem(R1, R2, DWord, 8)` encodes to the bytes of a plain atomic add, and
decodes to `AddAtomic`. -/
theorem atomic_survives_counterexample : ¬ AtomicSurvives := by
  intro H
  obtain ⟨j, hj, ho⟩ := H .little "linux" (atomicMem 0x100#32 0x18#8 1#8 2#8 8#16)
    [0xdb#8, 0x21#8, 8#8, 0#8, 0#8, 0#8, 0#8, 0#8]
    (by decide) (by decide) (by decide) (by decide) (by decide) (by decide)
  have h2 : unmarshal .little "linux" [0xdb#8, 0x21#8, 8#8, 0#8, 0#8, 0#8, 0#8, 0#8]
      = .ok (⟨0xdb#32, 1#8, 2#8, 8#16, 0#64⟩, []) := by decide
  rw [h2] at hj
  simp only [Except.ok.injEq, Prod.mk.injEq] at hj
  rw [← hj.1] at ho
  exact absurd ho (by decide)

/-- C05 (partial): the operation survives for every atomic instruction whose constant repeats the
operation bits, as produced by the decoder; in particular for `AddAtomic` with constant zero. What is
missing is every instruction built by `AtomicOp.Mem` for the other operations. -/
theorem atomic_survives_partial (bo : ByteOrder) (plat : String) (t : Nat) (ht : tagNat plat = some t) (i : Ins)
    (h3 : i.op.toNat % 8 = 3) (h6 : i.op.toNat / 32 % 8 = 6) (h17 : i.op.toNat < 2 ^ 17)
    (hd : i.dst.toNat < 16) (hs : i.src.toNat < 16) (hc : Spec.fitsImm32 i.cons)
    (hco : i.cons.toNat % 2 ^ 9 = i.op.toNat / 256) :
    ∃ w, marshal plat bo i = .ok w ∧ unmarshal bo plat w = .ok (i, []) := by
  obtain ⟨w, h1, _, h2⟩ := encode_decode bo plat t ht i [] (.atomic _ _ _ _ _ h3 h6 h17 hco hd hs hc)
  exact ⟨w, h1, by simpa using h2⟩

example : ∃ w, marshal "linux" .little (atomicMem 0#32 0x18#8 1#8 2#8 8#16) = .ok w
    ∧ unmarshal .little "linux" w = .ok (atomicMem 0#32 0x18#8 1#8 2#8 8#16, []) :=
  atomic_survives_partial .little "linux" 0 rfl _ (by decide) (by decide) (by decide) (by decide) (by decide)
    ⟨by decide, by decide⟩ (by decide)

end Ebpf.Asm
