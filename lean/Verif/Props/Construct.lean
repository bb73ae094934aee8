import Verif.Model.Construct
import Verif.Spec.Isa
import Verif.Lemmas.Bits
/-!
# C90: constructed instructions do what they are named after
-/
namespace Ebpf.Asm.Construct
open OpCode Ebpf.Isa

/-- The instruction can be encoded (for the platform `native`), and a machine with byte order `host` executing it does `f`. -/
def Does (host : ByteOrder) (native : String) (i : Ins) (f : St → Out) : Prop :=
  ∃ bytes, marshal native host i = .ok bytes ∧ ∀ s, run host bytes s = some (f s)

/-- The instruction can't be encoded, or no machine accepts it. -/
def Refused (host : ByteOrder) (native : String) (i : Ins) : Prop :=
  (∃ e, marshal native host i = .error e) ∨ ∃ bytes, marshal native host i = .ok bytes ∧ ∀ s, run host bytes s = none

/-- Names of arithmetic operations. -/
def aluNames : List (BitVec 16 × Alu) :=
  [(Add, .add), (Sub, .sub), (Mul, .mul), (Div, .div), (SDiv, .sdiv), (Or, .or), (And, .and), (LSh, .lsh), (RSh, .rsh), (Neg, .neg), (Mod, .mod), (SMod, .smod), (Xor, .xor), (Mov, .mov),
    (MovSX8, .movsx8), (MovSX16, .movsx16), (MovSX32, .movsx32), (ArSh, .arsh)]

/-- Names of jumps. -/
def jumpNames : List (BitVec 8 × Cmp) :=
  [(JEq, .eq), (JGT, .gt), (JGE, .ge), (JSet, .set), (JNE, .ne), (JSGT, .sgt), (JSGE, .sge), (JLT, .lt), (JLE, .le), (JSLT, .slt), (JSLE, .sle)]

/-- Sizes in bytes. -/
def sizeNames : List (BitVec 8 × Nat) := [(Byte, 1), (Half, 2), (Word, 4), (DWord, 8)]

theorem regs_decode (host : ByteOrder) (d s : BitVec 8) (hd : d.toNat ≤ 10) (hs : s.toNat ≤ 10) :
    (if host = .little then (newBPFRegisters host d s).toNat % 16 else (newBPFRegisters host d s).toNat / 16) = d.toNat ∧
    (if host = .little then (newBPFRegisters host d s).toNat / 16 else (newBPFRegisters host d s).toNat % 16) = s.toNat := by
  have h : ∀ host : ByteOrder, ∀ a b : Fin 11, (if host = .little then (newBPFRegisters host (BitVec.ofNat 8 a) (BitVec.ofNat 8 b)).toNat % 16 else (newBPFRegisters host (BitVec.ofNat 8 a) (BitVec.ofNat 8 b)).toNat / 16) = a ∧
    (if host = .little then (newBPFRegisters host (BitVec.ofNat 8 a) (BitVec.ofNat 8 b)).toNat / 16 else (newBPFRegisters host (BitVec.ofNat 8 a) (BitVec.ofNat 8 b)).toNat % 16) = b := by
    intro host
    cases host <;> decide +kernel
  have := h host ⟨d.toNat, by omega⟩ ⟨s.toNat, by omega⟩
  simpa using this

theorem decode_narrow (host : ByteOrder) (c : BitVec 8) (d s : BitVec 8) (o : BitVec 16) (m : BitVec 32) (hc : c.toNat ≠ 24) (hd : d.toNat ≤ 10) (hs : s.toNat ≤ 10) :
    decode host ([c, newBPFRegisters host d s] ++ host.put16 o ++ host.put32 m) = some ⟨c.toNat, d.toNat, s.toNat, o, m, none⟩ := by
  obtain ⟨h1, h2⟩ := regs_decode host d s hd hs
  cases host <;>
  · simp only [reduceCtorEq, if_true, if_false] at h1 h2
    simp only [ByteOrder.put16, ByteOrder.put32, List.cons_append, List.nil_append, decode, hc, if_false, if_true, reduceCtorEq, h1, h2]
    simp only [ByteOrder.get16, ByteOrder.get32, Option.some.injEq, Raw.mk.injEq, true_and, and_true]
    constructor <;> (apply BitVec.eq_of_getLsbD_eq; intro i hi; simp; grind)

theorem decode_wide (host : ByteOrder) (d s : BitVec 8) (o : BitVec 16) (m n : BitVec 32) (hd : d.toNat ≤ 10) (hs : s.toNat ≤ 10) :
    decode host ([0x18#8, newBPFRegisters host d s] ++ host.put16 o ++ host.put32 m ++ host.put32 0#32 ++ host.put32 n) = some ⟨24, d.toNat, s.toNat, o, m, some n⟩ := by
  obtain ⟨h1, h2⟩ := regs_decode host d s hd hs
  obtain ⟨o0, o1, e1, e2⟩ := get16_put16 host o
  obtain ⟨a, b, c, f, e3, e4⟩ := get32_put32 host m
  obtain ⟨a', b', c', f', e5, e6⟩ := get32_put32 host n
  have ez : host.put32 0#32 = [0, 0, 0, 0] := by cases host <;> rfl
  rw [e1, e3, e5, ez]
  simp only [List.cons_append, List.nil_append, decode, e2, e4, e6, h1, h2]
  simp

section
variable (host : ByteOrder) (native : String)

theorem does_of (i : Ins) (c : BitVec 8) (d s : BitVec 8) (o : BitVec 16) (m : BitVec 32) (f : St → Out)
    (hm : marshal native host i = .ok ([c, newBPFRegisters host d s] ++ host.put16 o ++ host.put32 m)) (hc : c.toNat ≠ 24) (hd : d.toNat ≤ 10) (hs : s.toNat ≤ 10)
    (he : ∀ st, exec host ⟨c.toNat, d.toNat, s.toNat, o, m, none⟩ st = some (f st)) : Does host native i f :=
  ⟨_, hm, fun st => by unfold run; rw [decode_narrow host c d s o m hc hd hs]; exact he st⟩

theorem refused_of (i : Ins) (c : BitVec 8) (d s : BitVec 8) (o : BitVec 16) (m : BitVec 32)
    (hm : marshal native host i = .ok ([c, newBPFRegisters host d s] ++ host.put16 o ++ host.put32 m)) (hc : c.toNat ≠ 24) (hd : d.toNat ≤ 10) (hs : s.toNat ≤ 10)
    (he : ∀ st, exec host ⟨c.toNat, d.toNat, s.toNat, o, m, none⟩ st = none) : Refused host native i :=
  Or.inr ⟨_, hm, fun st => by unfold run; rw [decode_narrow host c d s o m hc hd hs]; exact he st⟩

theorem imm_back (v : BitVec 32) : (v.signExtend 64).setWidth 32 = v := by
  apply BitVec.eq_of_toNat_eq
  rw [BitVec.toNat_setWidth, BitVec.toNat_signExtend]
  simp only [BitVec.toNat_setWidth]
  split <;> omega

/-! ### Encoding -/

/-- The opcode and offset of extended arithmetic. -/
def ext (op : OpCode) : OpCode × BitVec 16 :=
  if op.aluOp = SDiv then (op.setALUOp Div, 1)
  else if op.aluOp = SMod then (op.setALUOp Mod, 1)
  else if op.aluOp = MovSX8 then (op.setALUOp Mov, 8)
  else if op.aluOp = MovSX16 then (op.setALUOp Mov, 16)
  else if op.aluOp = MovSX32 then (op.setALUOp Mov, 32)
  else (op, 0)

theorem marshal_alu (op : OpCode) (d s : BitVec 8) (k : BitVec 64) (c : BitVec 8) (o : BitVec 16)
    (h : op ≠ InvalidOpCode ∧ op.jumpOp ≠ Call ∧ clsIsALU op.cls = true ∧ op.isDWordLoad = false ∧ (ext op).1.bpfOpCode = some c ∧ (ext op).2 = o) :
    marshal native host ⟨op, d, s, 0, k⟩ = .ok ([c, newBPFRegisters host d s] ++ host.put16 o ++ host.put32 (k.setWidth 32)) := by
  obtain ⟨h1, h2, h3, h4, h5, h6⟩ := h
  have hb : (op.jumpOp == Call && s == 0#8 && d == 0#8) = false := by simp [h2]
  have ha : marshalALU ⟨op, d, s, 0, k⟩ = .ok ⟨(ext op).1, d, s, (ext op).2, k⟩ := by
    unfold marshalALU ext
    simp only [ne_eq]
    repeat' split
    all_goals first | rfl | contradiction
  simp only [marshal, marshalClass, Ins.isBuiltinCall, hb, h1, h3, h4, ha, Except.map, h5, h6, if_false, if_true, Bool.false_eq_true]

theorem marshal_alu_imm (op : OpCode) (d s : BitVec 8) (v : BitVec 32) (c : BitVec 8) (o : BitVec 16)
    (h : op ≠ InvalidOpCode ∧ op.jumpOp ≠ Call ∧ clsIsALU op.cls = true ∧ op.isDWordLoad = false ∧ (ext op).1.bpfOpCode = some c ∧ (ext op).2 = o) :
    marshal native host ⟨op, d, s, 0, v.signExtend 64⟩ = .ok ([c, newBPFRegisters host d s] ++ host.put16 o ++ host.put32 v) := by
  rw [marshal_alu host native op d s _ c o h, imm_back]

theorem marshal_plain (op : OpCode) (d s : BitVec 8) (o : BitVec 16) (k : BitVec 64) (c : BitVec 8)
    (h : op ≠ InvalidOpCode ∧ clsIsALU op.cls = false ∧ op.atomicOp = InvalidAtomic ∧ op.isDWordLoad = false ∧ op.bpfOpCode = some c) (hb : op.jumpOp ≠ Call ∨ s ≠ 0#8) :
    marshal native host ⟨op, d, s, o, k⟩ = .ok ([c, newBPFRegisters host d s] ++ host.put16 o ++ host.put32 (k.setWidth 32)) := by
  obtain ⟨h1, h3, h4, h5, h6⟩ := h
  have hb : (op.jumpOp == Call && s == 0#8 && d == 0#8) = false := by
    rcases hb with hb | hb <;> simp [hb]
  simp only [marshal, marshalClass, Ins.isBuiltinCall, hb, h1, h3, h4, h5, h6, if_false, Bool.false_eq_true, ne_eq, not_true_eq_false]

theorem marshal_atomic (op : OpCode) (d s : BitVec 8) (o : BitVec 16) (k : BitVec 64) (c : BitVec 8)
    (h : op ≠ InvalidOpCode ∧ op.jumpOp ≠ Call ∧ clsIsALU op.cls = false ∧ op.atomicOp ≠ InvalidAtomic ∧ op.isDWordLoad = false ∧ OpCode.bpfOpCode (op &&& ~~~atomicMask) = some c) :
    marshal native host ⟨op, d, s, o, k⟩ = .ok ([c, newBPFRegisters host d s] ++ host.put16 o ++ host.put32 (k.setWidth 32)) := by
  obtain ⟨h1, h2, h3, h4, h5, h6⟩ := h
  have hb : (op.jumpOp == Call && s == 0#8 && d == 0#8) = false := by simp [h2]
  simp only [marshal, marshalClass, Ins.isBuiltinCall, hb, h1, h3, h4, h5, h6, if_false, if_true, Bool.false_eq_true, ne_eq, not_false_eq_true]

theorem marshal_wide (d s : BitVec 8) (k : BitVec 64) :
    marshal native host ⟨0x18#32, d, s, 0, k⟩ = .ok ([0x18#8, newBPFRegisters host d s] ++ host.put16 0 ++ host.put32 (k.setWidth 32) ++ host.put32 0#32 ++ host.put32 ((k.sshiftRight 32).setWidth 32)) := by
  have hb : (OpCode.jumpOp 0x18#32 == Call && s == 0#8 && d == 0#8) = false := by
    have : (OpCode.jumpOp 0x18#32 == Call) = false := by decide
    simp [this]
  have h1 : (0x18#32 : OpCode) ≠ InvalidOpCode := by decide
  have h3 : clsIsALU (OpCode.cls 0x18#32) = false := by decide
  have h4 : OpCode.atomicOp 0x18#32 = InvalidAtomic := by decide
  have h5 : OpCode.isDWordLoad 0x18#32 = true := by decide
  have h6 : OpCode.bpfOpCode 0x18#32 = some 0x18#8 := by decide
  simp only [marshal, marshalClass, Ins.isBuiltinCall, hb, h1, h3, h4, h5, h6, if_false, if_true, Bool.false_eq_true, ne_eq, not_true_eq_false]

/-! ### Arithmetic -/

/-- 4.1: codes. -/
def aluCode : Alu → BitVec 8
  | .add => 0x00
  | .sub => 0x10
  | .mul => 0x20
  | .div => 0x30
  | .sdiv => 0x30
  | .or => 0x40
  | .and => 0x50
  | .lsh => 0x60
  | .rsh => 0x70
  | .neg => 0x80
  | .mod => 0x90
  | .smod => 0x90
  | .xor => 0xa0
  | .mov => 0xb0
  | .movsx8 => 0xb0
  | .movsx16 => 0xb0
  | .movsx32 => 0xb0
  | .arsh => 0xc0

/-- 4.1: offsets. -/
def aluOff : Alu → BitVec 16
  | .sdiv => 1
  | .smod => 1
  | .movsx8 => 8
  | .movsx16 => 16
  | .movsx32 => 32
  | _ => 0

/-- **C90.** `op.Reg(dst, src)`: dst = dst op src. -/
theorem alu_reg (x : BitVec 16 × Alu) (hx : x ∈ aluNames) (hn : x.2 ≠ .neg) (d s : BitVec 8) (hd : d.toNat ≤ 10) (hs : s.toNat ≤ 10) :
    Does host native (aluReg x.1 d s) (fun st => .next ((st.set d.toNat (x.2.sem (st.reg d.toNat) (st.reg s.toNat))).adv 1)) := by
  simp only [aluNames, List.mem_cons, List.not_mem_nil, or_false] at hx
  refine does_of host native _ (aluCode x.2 + 15) d s (aluOff x.2) 0 _ ?_ ?_ hd hs (fun st => ?_)
  all_goals rcases hx with rfl | rfl | rfl | rfl | rfl | rfl | rfl | rfl | rfl | rfl | rfl | rfl | rfl | rfl | rfl | rfl | rfl | rfl
  all_goals first
    | exact absurd rfl hn
    | exact marshal_alu host native _ d s _ _ _ (by decide)
    | decide
    | (simp [exec, Nat.not_lt.mpr hd, Nat.not_lt.mpr hs, aluCode, aluOff, execAlu, aluOf, aluOf0]; done)

/-- **C90.** `op.Imm(dst, value)`: dst = dst op value, with the value sign extended. Moves with sign extension have no such form; Neg takes no value. -/
theorem alu_imm (x : BitVec 16 × Alu) (hx : x ∈ aluNames) (hn : x.2 ∉ [Alu.movsx8, .movsx16, .movsx32]) (d : BitVec 8) (hd : d.toNat ≤ 10) (v : BitVec 32) (hv : x.2 = .neg → v = 0) :
    Does host native (aluImm x.1 d v) (fun st => .next ((st.set d.toNat (x.2.sem (st.reg d.toNat) (v.signExtend 64))).adv 1)) := by
  simp only [aluNames, List.mem_cons, List.not_mem_nil, or_false] at hx
  refine does_of host native _ (aluCode x.2 + 7) d 0 (aluOff x.2) v _ ?_ ?_ hd (by decide) (fun st => ?_)
  all_goals rcases hx with rfl | rfl | rfl | rfl | rfl | rfl | rfl | rfl | rfl | rfl | rfl | rfl | rfl | rfl | rfl | rfl | rfl | rfl
  all_goals first
    | (exfalso; apply hn; decide)
    | exact marshal_alu_imm host native _ d _ v _ _ (by decide)
    | decide
    | (simp [exec, Nat.not_lt.mpr hd, aluCode, aluOff, execAlu, aluOf, aluOf0]; done)
    | (rw [hv rfl]; simp [exec, Nat.not_lt.mpr hd, aluCode, aluOff, execAlu, aluOf, aluOf0]; done)

/-- **C90.** `op.Reg32(dst, src)`: the same with 32 bits, the others are cleared. -/
theorem alu_reg32 (x : BitVec 16 × Alu) (hx : x ∈ aluNames) (hn : x.2 ∉ [Alu.neg, .movsx32]) (d s : BitVec 8) (hd : d.toNat ≤ 10) (hs : s.toNat ≤ 10) :
    Does host native (aluReg32 x.1 d s) (fun st => .next ((st.set d.toNat ((x.2.sem ((st.reg d.toNat).setWidth 32) ((st.reg s.toNat).setWidth 32)).setWidth 64)).adv 1)) := by
  simp only [aluNames, List.mem_cons, List.not_mem_nil, or_false] at hx
  refine does_of host native _ (aluCode x.2 + 12) d s (aluOff x.2) 0 _ ?_ ?_ hd hs (fun st => ?_)
  all_goals rcases hx with rfl | rfl | rfl | rfl | rfl | rfl | rfl | rfl | rfl | rfl | rfl | rfl | rfl | rfl | rfl | rfl | rfl | rfl
  all_goals first
    | (exfalso; apply hn; decide)
    | exact marshal_alu host native _ d s _ _ _ (by decide)
    | decide
    | (simp [exec, Nat.not_lt.mpr hd, Nat.not_lt.mpr hs, aluCode, aluOff, execAlu, aluOf, aluOf0]; done)

/-- **C90.** `op.Imm32(dst, value)`. -/
theorem alu_imm32 (x : BitVec 16 × Alu) (hx : x ∈ aluNames) (hn : x.2 ∉ [Alu.movsx8, .movsx16, .movsx32]) (d : BitVec 8) (hd : d.toNat ≤ 10) (v : BitVec 32) (hv : x.2 = .neg → v = 0) :
    Does host native (aluImm32 x.1 d v) (fun st => .next ((st.set d.toNat ((x.2.sem ((st.reg d.toNat).setWidth 32) v).setWidth 64)).adv 1)) := by
  simp only [aluNames, List.mem_cons, List.not_mem_nil, or_false] at hx
  refine does_of host native _ (aluCode x.2 + 4) d 0 (aluOff x.2) v _ ?_ ?_ hd (by decide) (fun st => ?_)
  all_goals rcases hx with rfl | rfl | rfl | rfl | rfl | rfl | rfl | rfl | rfl | rfl | rfl | rfl | rfl | rfl | rfl | rfl | rfl | rfl
  all_goals first
    | (exfalso; apply hn; decide)
    | exact marshal_alu_imm host native _ d _ v _ _ (by decide)
    | decide
    | (simp [exec, Nat.not_lt.mpr hd, aluCode, aluOff, execAlu, aluOf, aluOf0]; done)
    | (rw [hv rfl]; simp [exec, Nat.not_lt.mpr hd, aluCode, aluOff, execAlu, aluOf, aluOf0]; done)

/-- **C90.** The forms that don't exist are not accepted by anyone. -/
theorem alu_misuse (d s : BitVec 8) (hd : d.toNat ≤ 10) (hs : s.toNat ≤ 10) (v : BitVec 32) :
    Refused host native (aluReg Neg d s) ∧ Refused host native (aluReg32 Neg d s) ∧ Refused host native (aluReg32 MovSX32 d s) ∧
    (∀ op ∈ [MovSX8, MovSX16, MovSX32], Refused host native (aluImm op d v) ∧ Refused host native (aluImm32 op d v)) ∧
    (v ≠ 0 → Refused host native (aluImm Neg d v) ∧ Refused host native (aluImm32 Neg d v)) := by
  refine ⟨?_, ?_, ?_, ?_, ?_⟩
  · exact refused_of host native _ 0x8f d s 0 0 (marshal_alu host native _ d s _ _ _ (by decide)) (by decide) hd hs (fun st => by simp [exec, Nat.not_lt.mpr hd, Nat.not_lt.mpr hs, execAlu, aluOf])
  · exact refused_of host native _ 0x8c d s 0 0 (marshal_alu host native _ d s _ _ _ (by decide)) (by decide) hd hs (fun st => by simp [exec, Nat.not_lt.mpr hd, Nat.not_lt.mpr hs, execAlu, aluOf])
  · exact refused_of host native _ 0xbc d s 32 0 (marshal_alu host native _ d s _ _ _ (by decide)) (by decide) hd hs (fun st => by simp [exec, Nat.not_lt.mpr hd, Nat.not_lt.mpr hs, execAlu, aluOf])
  · intro op hop
    simp only [List.mem_cons, List.not_mem_nil, or_false] at hop
    rcases hop with rfl | rfl | rfl
    · exact ⟨refused_of host native _ 0xb7 d 0 8 v (marshal_alu_imm host native _ d _ v _ _ (by decide)) (by decide) hd (by decide) (fun st => by simp [exec, Nat.not_lt.mpr hd, execAlu, aluOf]),
        refused_of host native _ 0xb4 d 0 8 v (marshal_alu_imm host native _ d _ v _ _ (by decide)) (by decide) hd (by decide) (fun st => by simp [exec, Nat.not_lt.mpr hd, execAlu, aluOf])⟩
    · exact ⟨refused_of host native _ 0xb7 d 0 16 v (marshal_alu_imm host native _ d _ v _ _ (by decide)) (by decide) hd (by decide) (fun st => by simp [exec, Nat.not_lt.mpr hd, execAlu, aluOf]),
        refused_of host native _ 0xb4 d 0 16 v (marshal_alu_imm host native _ d _ v _ _ (by decide)) (by decide) hd (by decide) (fun st => by simp [exec, Nat.not_lt.mpr hd, execAlu, aluOf])⟩
    · exact ⟨refused_of host native _ 0xb7 d 0 32 v (marshal_alu_imm host native _ d _ v _ _ (by decide)) (by decide) hd (by decide) (fun st => by simp [exec, Nat.not_lt.mpr hd, execAlu, aluOf]),
        refused_of host native _ 0xb4 d 0 32 v (marshal_alu_imm host native _ d _ v _ _ (by decide)) (by decide) hd (by decide) (fun st => by simp [exec, Nat.not_lt.mpr hd, execAlu, aluOf])⟩
  · intro hv
    have hv : ¬v = 0#32 := hv
    exact ⟨refused_of host native _ 0x87 d 0 0 v (marshal_alu_imm host native _ d _ v _ _ (by decide)) (by decide) hd (by decide) (fun st => by simp [exec, Nat.not_lt.mpr hd, execAlu, aluOf, aluOf0, hv]),
        refused_of host native _ 0x84 d 0 0 v (marshal_alu_imm host native _ d _ v _ _ (by decide)) (by decide) hd (by decide) (fun st => by simp [exec, Nat.not_lt.mpr hd, execAlu, aluOf, aluOf0, hv])⟩

/-- **C90.** `HostTo(endian, dst, size)` converts the lowest bytes of dst from the byte order of the machine and clears the others. -/
theorem hostTo_does (e : ByteOrder) (x : BitVec 8 × Nat) (hx : x ∈ sizeNames) (hb : x.2 ≠ 1) (d : BitVec 8) (hd : d.toNat ≤ 10) :
    Does host native (hostTo (if e = .little then LE else BE) d x.1)
      (fun st => .next ((st.set d.toNat (if e = host then trunc x.2 (st.reg d.toNat) else bswap x.2 (st.reg d.toNat))).adv 1)) := by
  simp only [sizeNames, List.mem_cons, List.not_mem_nil, or_false] at hx
  have s1 : swapBits Half = some 16#64 := by decide
  have s2 : swapBits Word = some 32#64 := by decide
  have s3 : swapBits DWord = some 64#64 := by decide
  have o1 : ((ofClass ALUClass).setALUOp Swap).setSource (LE.setWidth 16) = 0xd4#32 := by decide
  have o2 : ((ofClass ALUClass).setALUOp Swap).setSource (BE.setWidth 16) = 0xdc#32 := by decide
  have m1 : ∀ k : BitVec 64, marshal native host ⟨0xd4#32, d, 0, 0, k⟩ = .ok ([0xd4#8, newBPFRegisters host d 0] ++ host.put16 0 ++ host.put32 (k.setWidth 32)) := fun k => marshal_alu host native _ d 0 k _ _ (by decide)
  have m2 : ∀ k : BitVec 64, marshal native host ⟨0xdc#32, d, 0, 0, k⟩ = .ok ([0xdc#8, newBPFRegisters host d 0] ++ host.put16 0 ++ host.put32 (k.setWidth 32)) := fun k => marshal_alu host native _ d 0 k _ _ (by decide)
  rcases hx with rfl | rfl | rfl | rfl
  · exact absurd rfl hb
  · cases e
    · simp only [hostTo, s1, if_true, o1]
      exact does_of host native _ 0xd4 d 0 0 16 _ (m1 16) (by decide) hd (by decide) (fun st => by cases host <;> simp [exec, Nat.not_lt.mpr hd, execAlu])
    · simp only [hostTo, s1, reduceCtorEq, if_false, o2]
      exact does_of host native _ 0xdc d 0 0 16 _ (m2 16) (by decide) hd (by decide) (fun st => by cases host <;> simp [exec, Nat.not_lt.mpr hd, execAlu])
  · cases e
    · simp only [hostTo, s2, if_true, o1]
      exact does_of host native _ 0xd4 d 0 0 32 _ (m1 32) (by decide) hd (by decide) (fun st => by cases host <;> simp [exec, Nat.not_lt.mpr hd, execAlu])
    · simp only [hostTo, s2, reduceCtorEq, if_false, o2]
      exact does_of host native _ 0xdc d 0 0 32 _ (m2 32) (by decide) hd (by decide) (fun st => by cases host <;> simp [exec, Nat.not_lt.mpr hd, execAlu])
  · cases e
    · simp only [hostTo, s3, if_true, o1]
      exact does_of host native _ 0xd4 d 0 0 64 _ (m1 64) (by decide) hd (by decide) (fun st => by cases host <;> simp [exec, Nat.not_lt.mpr hd, execAlu])
    · simp only [hostTo, s3, reduceCtorEq, if_false, o2]
      exact does_of host native _ 0xdc d 0 0 64 _ (m2 64) (by decide) hd (by decide) (fun st => by cases host <;> simp [exec, Nat.not_lt.mpr hd, execAlu])

/-- **C90.** `BSwap(dst, size)` reverses the lowest bytes of dst and clears the others. -/
theorem bSwap_does (x : BitVec 8 × Nat) (hx : x ∈ sizeNames) (hb : x.2 ≠ 1) (d : BitVec 8) (hd : d.toNat ≤ 10) :
    Does host native (bSwap d x.1) (fun st => .next ((st.set d.toNat (bswap x.2 (st.reg d.toNat))).adv 1)) := by
  simp only [sizeNames, List.mem_cons, List.not_mem_nil, or_false] at hx
  have s1 : swapBits Half = some 16#64 := by decide
  have s2 : swapBits Word = some 32#64 := by decide
  have s3 : swapBits DWord = some 64#64 := by decide
  have o1 : (ofClass ALU64Class).setALUOp Swap = 0xd7#32 := by decide
  have m1 : ∀ k : BitVec 64, marshal native host ⟨0xd7#32, d, 0, 0, k⟩ = .ok ([0xd7#8, newBPFRegisters host d 0] ++ host.put16 0 ++ host.put32 (k.setWidth 32)) := fun k => marshal_alu host native _ d 0 k _ _ (by decide)
  rcases hx with rfl | rfl | rfl | rfl
  · exact absurd rfl hb
  · simp only [bSwap, s1, o1]
    exact does_of host native _ 0xd7 d 0 0 16 _ (m1 16) (by decide) hd (by decide) (fun st => by simp [exec, Nat.not_lt.mpr hd, execAlu])
  · simp only [bSwap, s2, o1]
    exact does_of host native _ 0xd7 d 0 0 32 _ (m1 32) (by decide) hd (by decide) (fun st => by simp [exec, Nat.not_lt.mpr hd, execAlu])
  · simp only [bSwap, s3, o1]
    exact does_of host native _ 0xd7 d 0 0 64 _ (m1 64) (by decide) hd (by decide) (fun st => by simp [exec, Nat.not_lt.mpr hd, execAlu])

/-- **C90.** Other sizes are refused. -/
theorem swap_size_refused (e d size : BitVec 8) (h : size ∉ [Half, Word, DWord]) : Refused host native (hostTo e d size) ∧ Refused host native (bSwap d size) := by
  simp only [List.mem_cons, List.not_mem_nil, or_false, not_or] at h
  have hs : swapBits size = none := by simp [swapBits, h.1, h.2.1, h.2.2]
  constructor <;> (refine Or.inl ⟨.invalidOpcode, ?_⟩; simp [hostTo, bSwap, hs, marshal, invalid])

/-! ### Jumps -/

/-- 4.3: codes. -/
def cmpCode : Cmp → BitVec 8
  | .eq => 0x10
  | .gt => 0x20
  | .ge => 0x30
  | .set => 0x40
  | .ne => 0x50
  | .sgt => 0x60
  | .sge => 0x70
  | .lt => 0xa0
  | .le => 0xb0
  | .slt => 0xc0
  | .sle => 0xd0

theorem marshal_plain_imm (op : OpCode) (d s : BitVec 8) (o : BitVec 16) (v : BitVec 32) (c : BitVec 8)
    (h : op ≠ InvalidOpCode ∧ clsIsALU op.cls = false ∧ op.atomicOp = InvalidAtomic ∧ op.isDWordLoad = false ∧ op.bpfOpCode = some c) (hb : op.jumpOp ≠ Call ∨ s ≠ 0#8) :
    marshal native host ⟨op, d, s, o, v.signExtend 64⟩ = .ok ([c, newBPFRegisters host d s] ++ host.put16 o ++ host.put32 v) := by
  rw [marshal_plain host native op d s o _ c h hb, imm_back]

/-- **C90.** `op.Reg(dst, src, label)`, with the label `o` slots after the next instruction: jump there if dst op src, else go on. -/
theorem jump_reg (x : BitVec 8 × Cmp) (hx : x ∈ jumpNames) (d s : BitVec 8) (hd : d.toNat ≤ 10) (hs : s.toNat ≤ 10) (o : BitVec 16) :
    Does host native { jumpReg x.1 d s with off := o } (fun st => .next (st.adv (if x.2.sem (st.reg d.toNat) (st.reg s.toNat) then 1 + o.toInt else 1))) := by
  simp only [jumpNames, List.mem_cons, List.not_mem_nil, or_false] at hx
  refine does_of host native _ (cmpCode x.2 + 13) d s o 0 _ ?_ ?_ hd hs (fun st => ?_)
  all_goals rcases hx with rfl | rfl | rfl | rfl | rfl | rfl | rfl | rfl | rfl | rfl | rfl
  all_goals first
    | (dsimp only [jumpReg]; exact marshal_plain host native _ d s o _ _ (by decide) (Or.inl (by decide)))
    | decide
    | (simp [exec, Nat.not_lt.mpr hd, Nat.not_lt.mpr hs, cmpCode, execJump, cmpOf]; done)

/-- **C90.** `op.Reg32(dst, src, label)`: the same with the lower 32 bits. -/
theorem jump_reg32 (x : BitVec 8 × Cmp) (hx : x ∈ jumpNames) (d s : BitVec 8) (hd : d.toNat ≤ 10) (hs : s.toNat ≤ 10) (o : BitVec 16) :
    Does host native { jumpReg32 x.1 d s with off := o } (fun st => .next (st.adv (if x.2.sem ((st.reg d.toNat).setWidth 32) ((st.reg s.toNat).setWidth 32) then 1 + o.toInt else 1))) := by
  simp only [jumpNames, List.mem_cons, List.not_mem_nil, or_false] at hx
  refine does_of host native _ (cmpCode x.2 + 14) d s o 0 _ ?_ ?_ hd hs (fun st => ?_)
  all_goals rcases hx with rfl | rfl | rfl | rfl | rfl | rfl | rfl | rfl | rfl | rfl | rfl
  all_goals first
    | (dsimp only [jumpReg32]; exact marshal_plain host native _ d s o _ _ (by decide) (Or.inl (by decide)))
    | decide
    | (simp [exec, Nat.not_lt.mpr hd, Nat.not_lt.mpr hs, cmpCode, execJump, cmpOf]; done)

/-- **C90.** `op.Imm(dst, value, label)`: compare with the sign extended value. -/
theorem jump_imm (x : BitVec 8 × Cmp) (hx : x ∈ jumpNames) (d : BitVec 8) (hd : d.toNat ≤ 10) (v : BitVec 32) (o : BitVec 16) :
    Does host native { jumpImm x.1 d v with off := o } (fun st => .next (st.adv (if x.2.sem (st.reg d.toNat) (v.signExtend 64) then 1 + o.toInt else 1))) := by
  simp only [jumpNames, List.mem_cons, List.not_mem_nil, or_false] at hx
  refine does_of host native _ (cmpCode x.2 + 5) d 0 o v _ ?_ ?_ hd (by decide) (fun st => ?_)
  all_goals rcases hx with rfl | rfl | rfl | rfl | rfl | rfl | rfl | rfl | rfl | rfl | rfl
  all_goals first
    | (dsimp only [jumpImm]; exact marshal_plain_imm host native _ d _ o v _ (by decide) (Or.inl (by decide)))
    | decide
    | (simp [exec, Nat.not_lt.mpr hd, cmpCode, execJump, cmpOf]; done)

/-- **C90.** `op.Imm32(dst, value, label)`. -/
theorem jump_imm32 (x : BitVec 8 × Cmp) (hx : x ∈ jumpNames) (d : BitVec 8) (hd : d.toNat ≤ 10) (v : BitVec 32) (o : BitVec 16) :
    Does host native { jumpImm32 x.1 d v with off := o } (fun st => .next (st.adv (if x.2.sem ((st.reg d.toNat).setWidth 32) v then 1 + o.toInt else 1))) := by
  simp only [jumpNames, List.mem_cons, List.not_mem_nil, or_false] at hx
  refine does_of host native _ (cmpCode x.2 + 6) d 0 o v _ ?_ ?_ hd (by decide) (fun st => ?_)
  all_goals rcases hx with rfl | rfl | rfl | rfl | rfl | rfl | rfl | rfl | rfl | rfl | rfl
  all_goals first
    | (dsimp only [jumpImm32]; exact marshal_plain_imm host native _ d _ o v _ (by decide) (Or.inl (by decide)))
    | decide
    | (simp [exec, Nat.not_lt.mpr hd, cmpCode, execJump, cmpOf]; done)

/-- **C90.** `Ja.Label(label)` and `LongJump(label)` jump, `Call.Label(label)` calls the function there, `Return()` ends the program. -/
theorem jump_others (o : BitVec 16) (o32 : BitVec 32) :
    Does host native { jumpLabel Ja with off := o } (fun st => .next (st.adv (1 + o.toInt))) ∧
    Does host native { longJump with cons := o32.signExtend 64 } (fun st => .next (st.adv (1 + o32.toInt))) ∧
    Does host native { jumpLabel Call with cons := o32.signExtend 64 } (fun st => .call (st.pc + 1 + o32.toInt) (st.adv 1)) ∧
    Does host native return_ (fun st => .exit (st.reg 0)) := by
  refine ⟨?_, ?_, ?_, ?_⟩
  · exact does_of host native _ 0x05 0 0 o 0 _ (marshal_plain host native _ _ _ o 0 _ (by decide) (Or.inl (by decide))) (by decide) (by decide) (by decide) (fun st => by simp [exec, execJump])
  · exact does_of host native _ 0x06 0 0 0 o32 _ (marshal_plain_imm host native _ _ _ _ o32 _ (by decide) (Or.inl (by decide))) (by decide) (by decide) (by decide) (fun st => by simp [exec, execJump])
  · exact does_of host native _ 0x85 0 1 0 o32 _ (marshal_plain_imm host native _ _ _ _ o32 _ (by decide) (Or.inr (by decide))) (by decide) (by decide) (by decide) (fun st => by simp [exec, execJump])
  · exact does_of host native _ 0x95 0 0 0 0 _ (marshal_plain host native _ _ _ _ 0 _ (by decide) (Or.inl (by decide))) (by decide) (by decide) (by decide) (fun st => by simp [exec, execJump])

/-- **C90.** `fn.Call()` calls the helper with that number: on Linux numbers are as they are, on Windows they have a tag. The helpers of the other platform are refused. -/
theorem builtinCall_does (n : Nat) (h : n < 2 ^ 28) :
    Does host "linux" (builtinCall (BitVec.ofNat 32 n)) (fun st => .helper (BitVec.ofNat 32 n) (st.adv 1)) ∧
    Does host "windows" (builtinCall (BitVec.ofNat 32 (2 ^ 28 + n))) (fun st => .helper (BitVec.ofNat 32 n) (st.adv 1)) ∧
    Refused host "windows" (builtinCall (BitVec.ofNat 32 n)) ∧ Refused host "linux" (builtinCall (BitVec.ofNat 32 (2 ^ 28 + n))) := by
  have ho : (ofClass JumpClass).setJumpOp Call = 0x85#32 := by decide
  have hc : (OpCode.jumpOp 0x85#32 == Call && (0 : BitVec 8) == 0#8 && (0 : BitVec 8) == 0#8) = true := by decide
  have hm : ∀ (native : String) (fn : BitVec 32), marshal native host (builtinCall fn) =
      if (Platform.decodeConstant fn).1 ≠ native then .error .notSupportedOnOS else .ok ([0x85#8, newBPFRegisters host 0 0] ++ host.put16 0 ++ host.put32 (Platform.decodeConstant fn).2) := by
    intro native fn
    have h1 : (0x85#32 : OpCode) ≠ InvalidOpCode := by decide
    have h5 : OpCode.isDWordLoad 0x85#32 = false := by decide
    have h6 : OpCode.bpfOpCode 0x85#32 = some 0x85#8 := by decide
    have hf : (fn.setWidth 64).setWidth 32 = fn := by
      apply BitVec.eq_of_toNat_eq; simp only [BitVec.toNat_setWidth]; omega
    simp only [builtinCall, ho, marshal, marshalClass, Ins.isBuiltinCall, hc, h1, h5, h6, hf, if_true, if_false, Bool.false_eq_true]
    by_cases hx : (Platform.decodeConstant fn).1 = native
    · simp only [hx, ne_eq, not_true_eq_false, if_false, h6]
    · simp only [hx, ne_eq, not_false_eq_true, if_true]
  have k1 : BitVec.ofNat 32 n &&& 0x70000000#32 = 0#32 := by
    apply BitVec.eq_of_getLsbD_eq
    intro i hi
    simp only [BitVec.getLsbD_and, BitVec.getLsbD_ofNat]
    by_cases hi2 : i < 28
    · have : ∀ i < 28, Nat.testBit 0x70000000 i = false := by decide
      simp [this i hi2]
    · have : n.testBit i = false := Nat.testBit_lt_two_pow (Nat.lt_of_lt_of_le h (Nat.pow_le_pow_right (by omega) (by omega)))
      simp [this]
  have k2 : BitVec.ofNat 32 n &&& ~~~0x70000000#32 = BitVec.ofNat 32 n := by
    apply BitVec.eq_of_getLsbD_eq
    intro i hi
    have := congrArg (fun (b : BitVec 32) => b.getLsbD i) k1
    simp only [BitVec.getLsbD_and, BitVec.getLsbD_zero] at this ⊢
    simp only [BitVec.getLsbD_not, hi, decide_true, Bool.true_and]
    cases h1 : (BitVec.ofNat 32 n).getLsbD i <;> cases h2 : (0x70000000#32).getLsbD i <;> simp_all
  have ka : BitVec.ofNat 32 (2 ^ 28 + n) = 0x10000000#32 ||| BitVec.ofNat 32 n := by
    apply BitVec.eq_of_toNat_eq
    have e := Nat.two_pow_add_eq_or_of_lt h 1
    simp only [Nat.mul_one] at e
    simp only [BitVec.toNat_ofNat, BitVec.toNat_or]
    rw [Nat.mod_eq_of_lt (by omega : 2 ^ 28 + n < 2 ^ 32), Nat.mod_eq_of_lt (by omega : n < 2 ^ 32), e]
  have k3 : BitVec.ofNat 32 (2 ^ 28 + n) &&& 0x70000000#32 = 0x10000000#32 := by
    rw [ka, BitVec.and_comm, BitVec.and_or_distrib_left, BitVec.and_comm _ (BitVec.ofNat 32 n), k1]
    decide
  have k4 : BitVec.ofNat 32 (2 ^ 28 + n) &&& ~~~0x70000000#32 = BitVec.ofNat 32 n := by
    rw [ka, BitVec.and_comm, BitVec.and_or_distrib_left, BitVec.and_comm _ (BitVec.ofNat 32 n), k2]
    have : ~~~0x70000000#32 &&& 0x10000000#32 = 0#32 := by decide
    rw [this, BitVec.zero_or]
  have d1 : Platform.decodeConstant (BitVec.ofNat 32 n) = ("linux", BitVec.ofNat 32 n) := by
    simp only [Platform.decodeConstant, Platform.platformForConstant, Platform.platformMask, Platform.LinuxTag, Platform.Linux, k1, k2]
    simp
  have d2 : Platform.decodeConstant (BitVec.ofNat 32 (2 ^ 28 + n)) = ("windows", BitVec.ofNat 32 n) := by
    simp only [Platform.decodeConstant, Platform.platformForConstant, Platform.platformMask, Platform.LinuxTag, Platform.WindowsTag, Platform.Windows, k3, k4]
    simp
  refine ⟨?_, ?_, ?_, ?_⟩
  · exact does_of host _ _ 0x85 0 0 0 (BitVec.ofNat 32 n) _ (by rw [hm, d1]; simp) (by decide) (by decide) (by decide) (fun st => by simp [exec, execJump])
  · exact does_of host _ _ 0x85 0 0 0 (BitVec.ofNat 32 n) _ (by rw [hm, d2]; simp) (by decide) (by decide) (by decide) (fun st => by simp [exec, execJump])
  · exact Or.inl ⟨.notSupportedOnOS, by rw [hm, d1]; simp⟩
  · exact Or.inl ⟨.notSupportedOnOS, by rw [hm, d2]; simp⟩

/-! ### Memory -/

/-- 5: codes of sizes. -/
def sizeCode : Nat → BitVec 8
  | 4 => 0x00
  | 2 => 0x08
  | 1 => 0x10
  | _ => 0x18

/-- **C90.** `LoadMem(dst, src, offset, size)`: dst = *(size *)(src + offset). -/
theorem loadMem_does (x : BitVec 8 × Nat) (hx : x ∈ sizeNames) (d s : BitVec 8) (hd : d.toNat ≤ 10) (hs : s.toNat ≤ 10) (o : BitVec 16) :
    Does host native (loadMem d s o x.1) (fun st => .next ((st.set d.toNat (load host st.mem (st.reg s.toNat + o.signExtend 64) x.2)).adv 1)) := by
  simp only [sizeNames, List.mem_cons, List.not_mem_nil, or_false] at hx
  refine does_of host native _ (sizeCode x.2 + 0x61) d s o 0 _ ?_ ?_ hd hs (fun st => ?_)
  all_goals rcases hx with rfl | rfl | rfl | rfl
  all_goals first
    | exact marshal_plain host native _ d s o _ _ (by decide) (Or.inl (by decide))
    | decide
    | (simp [exec, Nat.not_lt.mpr hd, Nat.not_lt.mpr hs, sizeCode, execMem, Isa.sizeOf]; done)

/-- **C90.** `LoadMemSX(dst, src, offset, size)`: the same with sign extension, for less than 64 bits. -/
theorem loadMemSX_does (x : BitVec 8 × Nat) (hx : x ∈ sizeNames) (h8 : x.2 ≠ 8) (d s : BitVec 8) (hd : d.toNat ≤ 10) (hs : s.toNat ≤ 10) (o : BitVec 16) :
    Does host native (loadMemSX d s o x.1)
      (fun st => .next ((st.set d.toNat (sext x.2 (load host st.mem (st.reg s.toNat + o.signExtend 64) x.2))).adv 1)) := by
  simp only [sizeNames, List.mem_cons, List.not_mem_nil, or_false] at hx
  have hne : ¬x.1 = DWord := by
    rcases hx with rfl | rfl | rfl | rfl
    · decide
    · decide
    · decide
    · exact absurd rfl h8
  unfold loadMemSX
  rw [if_neg hne]
  refine does_of host native _ (sizeCode x.2 + 0x81) d s o 0 _ ?_ ?_ hd hs (fun st => ?_)
  all_goals rcases hx with rfl | rfl | rfl | rfl
  all_goals first
    | exact absurd rfl h8
    | exact marshal_plain host native _ d s o _ _ (by decide) (Or.inl (by decide))
    | decide
    | (simp [exec, Nat.not_lt.mpr hd, Nat.not_lt.mpr hs, sizeCode, execMem, Isa.sizeOf]; done)

/-- **C90.** `StoreMem(dst, offset, src, size)`: *(size *)(dst + offset) = src. -/
theorem storeMem_does (x : BitVec 8 × Nat) (hx : x ∈ sizeNames) (d s : BitVec 8) (hd : d.toNat ≤ 10) (hs : s.toNat ≤ 10) (o : BitVec 16) :
    Does host native (storeMem d o s x.1) (fun st => .next ({ st with mem := store host st.mem (st.reg d.toNat + o.signExtend 64) x.2 (st.reg s.toNat) }.adv 1)) := by
  simp only [sizeNames, List.mem_cons, List.not_mem_nil, or_false] at hx
  refine does_of host native _ (sizeCode x.2 + 0x63) d s o 0 _ ?_ ?_ hd hs (fun st => ?_)
  all_goals rcases hx with rfl | rfl | rfl | rfl
  all_goals first
    | exact marshal_plain host native _ d s o _ _ (by decide) (Or.inl (by decide))
    | decide
    | (simp [exec, Nat.not_lt.mpr hd, Nat.not_lt.mpr hs, sizeCode, execMem, Isa.sizeOf]; done)

/-- **C90.** `StoreImm(dst, offset, value, size)`: *(size *)(dst + offset) = value, for values of 32 bits; others are refused. -/
theorem storeImm_does (x : BitVec 8 × Nat) (hx : x ∈ sizeNames) (d : BitVec 8) (hd : d.toNat ≤ 10) (o : BitVec 16) (v : BitVec 64) :
    (-(2 ^ 31) ≤ v.toInt ∧ v.toInt < 2 ^ 31 → Does host native (storeImm d o v x.1) (fun st => .next ({ st with mem := store host st.mem (st.reg d.toNat + o.signExtend 64) x.2 v }.adv 1))) ∧
    (¬(-(2 ^ 31) ≤ v.toInt ∧ v.toInt < 2 ^ 31) → Refused host native (storeImm d o v x.1)) := by
  have hiff : (v.setWidth 32).signExtend 64 = v ↔ -(2 ^ 31) ≤ v.toInt ∧ v.toInt < 2 ^ 31 := by
    constructor
    · intro h
      have h2 : ((v.setWidth 32).signExtend 64).toInt = (v.setWidth 32).toInt := BitVec.toInt_signExtend_of_le (by omega)
      rw [h] at h2
      rw [h2]
      have := (v.setWidth 32).toInt_lt
      have := (v.setWidth 32).le_toInt
      omega
    · intro h
      apply BitVec.eq_of_toInt_eq
      rw [BitVec.toInt_signExtend_of_le (by omega), BitVec.toInt_setWidth]
      have h1 := BitVec.toInt_eq_toNat_cond v
      have h2 : (v.toNat : Int) % 2 ^ 64 = v.toInt % 2 ^ 64 := by
        split at h1 <;> omega
      simp only [Int.bmod_def]
      omega
  simp only [sizeNames, List.mem_cons, List.not_mem_nil, or_false] at hx
  refine ⟨fun h => ?_, fun h => ?_⟩
  · have hv := hiff.mpr h
    unfold storeImm
    rw [if_neg (by simp [hv])]
    generalize v.setWidth 32 = w at hv
    subst hv
    refine does_of host native _ (sizeCode x.2 + 0x62) d 0 o w _ ?_ ?_ hd (by decide) (fun st => ?_)
    all_goals rcases hx with rfl | rfl | rfl | rfl
    all_goals first
      | exact marshal_plain_imm host native _ d _ o w _ (by decide) (Or.inl (by decide))
      | decide
      | (simp [exec, Nat.not_lt.mpr hd, sizeCode, execMem, Isa.sizeOf]; done)
  · refine Or.inl ⟨.invalidOpcode, ?_⟩
    have hv : (v.setWidth 32).signExtend 64 ≠ v := fun e => h (hiff.mp e)
    simp [storeImm, hv, marshal, invalid]

/-- **C90.** `LoadAbs(offset, size)` and `LoadInd(R0, src, offset, size)` load from the packet, in network byte order, to R0. -/
theorem loadPacket_does (x : BitVec 8 × Nat) (hx : x ∈ sizeNames) (h8 : x.2 ≠ 8) (s : BitVec 8) (hs : s.toNat ≤ 10) (v : BitVec 32) :
    Does host native (loadAbs v x.1) (fun st => .next ((st.set 0 (load .big st.pkt (v.signExtend 64) x.2)).adv 1)) ∧
    Does host native (loadInd 0 s v x.1) (fun st => .next ((st.set 0 (load .big st.pkt (st.reg s.toNat + v.signExtend 64) x.2)).adv 1)) := by
  simp only [sizeNames, List.mem_cons, List.not_mem_nil, or_false] at hx
  constructor
  · refine does_of host native _ (sizeCode x.2 + 0x20) 0 0 0 v _ ?_ ?_ (by decide) (by decide) (fun st => ?_)
    all_goals rcases hx with rfl | rfl | rfl | rfl
    all_goals first
      | exact absurd rfl h8
      | exact marshal_plain_imm host native _ _ _ _ v _ (by decide) (Or.inl (by decide))
      | decide
      | (simp [exec, sizeCode, execMem, Isa.sizeOf]; done)
  · refine does_of host native _ (sizeCode x.2 + 0x40) 0 s 0 v _ ?_ ?_ (by decide) hs (fun st => ?_)
    all_goals rcases hx with rfl | rfl | rfl | rfl
    all_goals first
      | exact absurd rfl h8
      | exact marshal_plain_imm host native _ _ s _ v _ (by decide) (Or.inl (by decide))
      | decide
      | (simp [exec, Nat.not_lt.mpr hs, sizeCode, execMem, Isa.sizeOf]; done)

/-- **LoadInd is documented to load to dst,** but for other registers than R0 nobody accepts it. -/
theorem loadInd_dst_refused (x : BitVec 8 × Nat) (hx : x ∈ sizeNames) (d s : BitVec 8) (hd : d.toNat ≤ 10) (h0 : d.toNat ≠ 0) (hs : s.toNat ≤ 10) (v : BitVec 32) :
    Refused host native (loadInd d s v x.1) := by
  simp only [sizeNames, List.mem_cons, List.not_mem_nil, or_false] at hx
  refine refused_of host native _ (sizeCode x.2 + 0x40) d s 0 v ?_ ?_ hd hs (fun st => ?_)
  all_goals rcases hx with rfl | rfl | rfl | rfl
  all_goals first
    | exact marshal_plain_imm host native _ _ s _ v _ (by decide) (Or.inl (by decide))
    | decide
    | (simp [exec, Nat.not_lt.mpr hd, Nat.not_lt.mpr hs, sizeCode, execMem, Isa.sizeOf, h0]; done)

theorem does_wide (i : Ins) (d s : BitVec 8) (k : BitVec 64) (f : St → Out) (hi : i = ⟨0x18#32, d, s, 0, k⟩) (hd : d.toNat ≤ 10) (hs : s.toNat ≤ 10)
    (he : ∀ st, exec host ⟨24, d.toNat, s.toNat, 0, k.setWidth 32, some ((k.sshiftRight 32).setWidth 32)⟩ st = some (f st)) : Does host native i f := by
  subst hi
  exact ⟨_, marshal_wide host native d s k, fun st => by unfold run; rw [decode_wide host d s 0 _ _ hd hs]; exact he st⟩

theorem hi_lo (k : BitVec 64) : ((k.sshiftRight 32).setWidth 32 ++ k.setWidth 32 : BitVec (32 + 32)) = k := by
  apply BitVec.eq_of_getLsbD_eq
  intro i hi
  simp only [BitVec.getLsbD_append, BitVec.getLsbD_setWidth, BitVec.getLsbD_sshiftRight]
  by_cases h : i < 32
  · simp [h]
  · have h2 : i - 32 < 32 := by omega
    have h3 : 32 + (i - 32) = i := by omega
    simp [h, h2, h3, hi]
    intros; omega

/-- **C90.** `LoadImm(dst, value, DWord)`: dst = value. -/
theorem loadImm_does (d : BitVec 8) (hd : d.toNat ≤ 10) (v : BitVec 64) : Does host native (loadImm d v DWord) (fun st => .next ((st.set d.toNat v).adv 2)) := by
  have ho : loadImmOp DWord = 0x18#32 := by decide
  refine does_wide host native _ d 0 v _ (by rw [loadImm, ho]) hd (by decide) (fun st => ?_)
  simp [exec, Nat.not_lt.mpr hd, execMem]
  exact congrArg (fun x => (st.set d.toNat x).adv 2) (hi_lo v)

/-- **C90.** `LoadMapPtr(dst, fd)` and `LoadMapValue(dst, fd, offset)` load the address of the map, or of its value. Negative descriptors are refused. -/
theorem loadMap_does (d : BitVec 8) (hd : d.toNat ≤ 10) (fd : Int) (o : BitVec 32) :
    (0 ≤ fd ∧ fd < 2 ^ 31 → Does host native (loadMapPtr d fd) (fun st => .map d.toNat (BitVec.ofNat 32 fd.toNat) none (st.adv 2)) ∧
      Does host native (loadMapValue d fd o) (fun st => .map d.toNat (BitVec.ofNat 32 fd.toNat) (some o) (st.adv 2))) ∧
    (fd < 0 → Refused host native (loadMapPtr d fd) ∧ Refused host native (loadMapValue d fd o)) := by
  have ho : loadImmOp DWord = 0x18#32 := by decide
  refine ⟨fun h => ?_, fun h => ?_⟩
  · have hf : BitVec.ofInt 32 fd = BitVec.ofNat 32 fd.toNat := by
      conv => lhs; rw [← Int.toNat_of_nonneg h.1]
      rfl
    have hlo : ∀ w : BitVec 32, (w.setWidth 64).setWidth 32 = w := by
      intro w; apply BitVec.eq_of_toNat_eq; simp only [BitVec.toNat_setWidth]; omega
    constructor
    · refine does_wide host native _ d 1 _ _ (by rw [loadMapPtr, if_neg (by omega), ho, hf]; rfl) hd (by decide) (fun st => ?_)
      have hz : (((BitVec.ofNat 32 fd.toNat).setWidth 64).sshiftRight 32).setWidth 32 = 0#32 := by
        apply BitVec.eq_of_getLsbD_eq
        intro i hi
        simp only [BitVec.getLsbD_setWidth, BitVec.getLsbD_sshiftRight, BitVec.getLsbD_zero, BitVec.msb_setWidth]
        have h1 : ¬ 32 + i < 32 := by omega
        simp
      simp only [hz, hlo]
      simp [exec, Nat.not_lt.mpr hd, execMem]
    · refine does_wide host native _ d 2 _ _ (by rw [loadMapValue, if_neg (by omega), ho, hf]; rfl) hd (by decide) (fun st => ?_)
      have hl : ((o.setWidth 64 <<< 32) ||| (BitVec.ofNat 32 fd.toNat).setWidth 64).setWidth 32 = BitVec.ofNat 32 fd.toNat := by
        apply BitVec.eq_of_getLsbD_eq
        intro i hi
        simp [hi]
      have hh : (((o.setWidth 64 <<< 32) ||| (BitVec.ofNat 32 fd.toNat).setWidth 64).sshiftRight 32).setWidth 32 = o := by
        apply BitVec.eq_of_getLsbD_eq
        intro i hi
        have h1 : 32 + i < 64 := by omega
        have h2 : ¬ 64 ≤ i := by omega
        have h3 : ¬ 32 + i < 32 := by omega
        simp [BitVec.getLsbD_sshiftRight, hi, h1, h2, h3]
      simp only [hl, hh]
      simp [exec, Nat.not_lt.mpr hd, execMem]
  · constructor <;> (refine Or.inl ⟨.invalidOpcode, ?_⟩; simp [loadMapPtr, loadMapValue, h, marshal, invalid])

/-! ### Atomic operations -/

/-- Names of atomic operations. -/
def atomicNames : List (BitVec 32 × Atomic) :=
  [(AddAtomic, .add), (FetchAdd, .fetchAdd), (AndAtomic, .and), (FetchAnd, .fetchAnd), (OrAtomic, .or), (FetchOr, .fetchOr), (XorAtomic, .xor), (FetchXor, .fetchXor), (Xchg, .xchg), (CmpXchg, .cmpxchg)]

/-- **C90, partial.** `AddAtomic.Mem(dst, src, size, offset)` and `StoreXAdd(dst, src, size)` do *(size *)(dst + offset) += src atomically, for 4 and 8 bytes. Missing: the other atomic operations, see `atomic_all_add`. -/
theorem atomic_add_partial (x : BitVec 8 × Nat) (hx : x ∈ sizeNames) (h4 : 4 ≤ x.2) (d s : BitVec 8) (hd : d.toNat ≤ 10) (hs : s.toNat ≤ 10) (o : BitVec 16) :
    Does host native (atomicMem AddAtomic d s x.1 o) (fun st => .next ((Atomic.sem .add host x.2 d.toNat s.toNat (o.signExtend 64) st).adv 1)) ∧
    Does host native (storeXAdd d s x.1) (fun st => .next ((Atomic.sem .add host x.2 d.toNat s.toNat 0 st).adv 1)) := by
  have key : ∀ o : BitVec 16, Does host native (atomicMem AddAtomic d s x.1 o) (fun st => .next ((Atomic.sem .add host x.2 d.toNat s.toNat (o.signExtend 64) st).adv 1)) := by
    intro o
    simp only [sizeNames, List.mem_cons, List.not_mem_nil, or_false] at hx
    refine does_of host native _ (sizeCode x.2 + 0xc3) d s o 0 _ ?_ ?_ hd hs (fun st => ?_)
    all_goals rcases hx with rfl | rfl | rfl | rfl
    all_goals first
      | (exfalso; revert h4; decide)
      | exact marshal_atomic host native _ d s o _ _ (by decide)
      | decide
      | (simp [exec, Nat.not_lt.mpr hd, Nat.not_lt.mpr hs, sizeCode, execMem, Isa.sizeOf, atomicOf]; done)
  exact ⟨key o, by simpa [storeXAdd] using key 0⟩

/-- **All atomic operations are additions:** whatever the operation, the machine adds src, without fetching anything, and so do load-acquire and store-release of 4 and 8 bytes. -/
theorem atomic_all_add (y : BitVec 32 × Atomic) (hy : y ∈ atomicNames) (x : BitVec 8 × Nat) (hx : x ∈ sizeNames) (h4 : 4 ≤ x.2) (d s : BitVec 8) (hd : d.toNat ≤ 10) (hs : s.toNat ≤ 10) (o : BitVec 16) :
    Does host native (atomicMem y.1 d s x.1 o) (fun st => .next ((Atomic.sem .add host x.2 d.toNat s.toNat (o.signExtend 64) st).adv 1)) ∧
    Does host native (loadAcq d s x.1 o) (fun st => .next ((Atomic.sem .add host x.2 d.toNat s.toNat (o.signExtend 64) st).adv 1)) ∧
    Does host native (storeRel d s x.1 o) (fun st => .next ((Atomic.sem .add host x.2 d.toNat s.toNat (o.signExtend 64) st).adv 1)) := by
  simp only [sizeNames, List.mem_cons, List.not_mem_nil, or_false] at hx
  simp only [atomicNames, List.mem_cons, List.not_mem_nil, or_false] at hy
  refine ⟨does_of host native _ (sizeCode x.2 + 0xc3) d s o 0 _ ?_ ?_ hd hs (fun st => ?_), does_of host native _ (sizeCode x.2 + 0xc3) d s o 0 _ ?_ ?_ hd hs (fun st => ?_),
    does_of host native _ (sizeCode x.2 + 0xc3) d s o 0 _ ?_ ?_ hd hs (fun st => ?_)⟩
  case refine_1 =>
    rcases hx with rfl | rfl | rfl | rfl
    all_goals first
      | (exfalso; revert h4; decide)
      | (rcases hy with rfl | rfl | rfl | rfl | rfl | rfl | rfl | rfl | rfl | rfl <;> exact marshal_atomic host native _ d s o _ _ (by decide))
  all_goals clear hy
  all_goals rcases hx with rfl | rfl | rfl | rfl
  all_goals first
    | (exfalso; revert h4; decide)
    | exact marshal_atomic host native _ d s o _ _ (by decide)
    | decide
    | (simp [exec, Nat.not_lt.mpr hd, Nat.not_lt.mpr hs, sizeCode, execMem, Isa.sizeOf, atomicOf]; done)

/-- **C90.** Atomic operations on 1 and 2 bytes are refused. -/
theorem atomic_small_refused (y : BitVec 32 × Atomic) (hy : y ∈ atomicNames) (x : BitVec 8 × Nat) (hx : x ∈ sizeNames) (h4 : x.2 < 4) (d s : BitVec 8) (o : BitVec 16) :
    Refused host native (atomicMem y.1 d s x.1 o) := by
  have h : atomicOpCode y.1 x.1 = InvalidOpCode := by
    simp only [sizeNames, List.mem_cons, List.not_mem_nil, or_false] at hx
    simp only [atomicNames, List.mem_cons, List.not_mem_nil, or_false] at hy
    rcases hx with rfl | rfl | rfl | rfl
    all_goals first
      | (exfalso; revert h4; decide)
      | (rcases hy with rfl | rfl | rfl | rfl | rfl | rfl | rfl | rfl | rfl | rfl <;> decide)
  exact Or.inl ⟨.invalidOpcode, by simp [atomicMem, h, marshal]⟩

/-- An instruction does one thing. -/
theorem does_unique (i : Ins) (f g : St → Out) (hf : Does host native i f) (hg : Does host native i g) : f = g := by
  obtain ⟨b, hb, h⟩ := hf
  obtain ⟨b', hb', h'⟩ := hg
  rw [hb] at hb'
  cases hb'
  funext s
  have := h s
  rw [h' s] at this
  exact (Option.some.inj this).symm

/-- **Exchanging isn't what `Xchg` does:** the old value isn't loaded. -/
theorem xchg_doesnt (d s : BitVec 8) (hd : d.toNat ≤ 10) (hs : s.toNat ≤ 10) (o : BitVec 16) :
    ¬ Does host native (atomicMem Xchg d s DWord o) (fun st => .next ((Atomic.sem .xchg host 8 d.toNat s.toNat (o.signExtend 64) st).adv 1)) := by
  intro h
  have h2 := (atomic_all_add host native (Xchg, .xchg) (by decide) (DWord, 8) (by decide) (by decide) d s hd hs o).1
  have e := congrFun (does_unique host native _ _ _ h h2) ⟨fun _ => 1, fun _ => 0, fun _ => 0, 0⟩
  simp only [Out.next.injEq] at e
  have e2 := congrArg (fun st => st.reg s.toNat) e
  have hz : ∀ a, load host (fun _ => 0#8) a 8 = 0#64 := by
    intro a; cases host <;> (simp [load, List.range, List.range.loop, leNat])
  simp [Atomic.sem, St.adv, St.set, hz] at e2

end

/-! ### Examples -/

/-- `if r1 > -1 goto +5` as signed numbers, on a big endian machine: 0x65 10 0005 ffffffff. -/
example : marshal "linux" .big { jumpImm JSGT 1 (-1) with off := 5 } = .ok [0x65, 0x10, 0, 5, 0xff, 0xff, 0xff, 0xff] := by decide +kernel

/-- `r3 s/= r2` of 32 bits: 0x3c 23 0001, and -7 s/ 2 = -3. -/
example : marshal "linux" .little (aluReg32 SDiv 3 2) = .ok [0x3c, 0x23, 1, 0, 0, 0, 0, 0] ∧ (Alu.sem .sdiv (-7#32) 2#32) = -3#32 := by decide +kernel

end Ebpf.Asm.Construct
