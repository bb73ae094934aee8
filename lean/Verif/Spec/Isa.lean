import Verif.Base
/-!
# Specification: the BPF instruction set

What instructions do, from RFC 9669 (section numbers in comments), with the fields Linux insists on being zero. Addresses and registers have 64 bits.
A program counter counts slots of eight bytes.
-/
namespace Ebpf.Isa

/-- A machine: registers, memory, the packet a socket filter looks at, the program counter. -/
structure St where
  reg : Nat → BitVec 64
  mem : BitVec 64 → Byte
  pkt : BitVec 64 → Byte
  pc : Int

/-- What an instruction leads to. -/
inductive Out where
  | next (s : St)
  | exit (r0 : BitVec 64)
  /-- Call helper `n`, then go on with `s`. -/
  | helper (n : BitVec 32) (s : St)
  /-- Call the function of the kernel with BTF ID `n`. -/
  | kfunc (n : BitVec 32) (s : St)
  /-- Call the function at `target`, then go on with `s`. -/
  | call (target : Int) (s : St)
  /-- Register `dst` becomes the address of the map with descriptor `fd`, or of its value at offset `off`. -/
  | map (dst : Nat) (fd : BitVec 32) (off : Option (BitVec 32)) (s : St)

/-- Change a register. -/
def St.set (s : St) (d : Nat) (v : BitVec 64) : St := { s with reg := fun r => if r = d then v else s.reg r }

/-- Go `n` slots further. -/
def St.adv (s : St) (n : Int) : St := { s with pc := s.pc + n }

/-- A little endian number. -/
def leNat : List Byte → Nat
  | [] => 0
  | b :: bs => b.toNat + 256 * leNat bs

/-- A number in memory. -/
def load (host : ByteOrder) (mem : BitVec 64 → Byte) (a : BitVec 64) (n : Nat) : BitVec 64 :=
  let bs := (List.range n).map (fun (i : Nat) => mem (a + BitVec.ofNat 64 i))
  BitVec.ofNat 64 (leNat (if host = .little then bs else bs.reverse))

/-- Store the lowest `n` bytes of `v`. -/
def store (host : ByteOrder) (mem : BitVec 64 → Byte) (a : BitVec 64) (n : Nat) (v : BitVec 64) : BitVec 64 → Byte :=
  fun x =>
    let i := (x - a).toNat
    if i < n then (v >>> (8 * (if host = .little then i else n - 1 - i))).setWidth 8 else mem x

/-- 4.1: arithmetic. -/
inductive Alu where
  | add | sub | mul | div | sdiv | or | and | lsh | rsh | neg | mod | smod | xor | mov | movsx8 | movsx16 | movsx32 | arsh
deriving DecidableEq

/-- 4.1: arithmetic of `w` bits. Division by zero gives zero, the remainder is then the dividend. -/
def Alu.sem {w : Nat} (op : Alu) (a b : BitVec w) : BitVec w :=
  match op with
  | .add => a + b
  | .sub => a - b
  | .mul => a * b
  | .div => if b = 0 then 0 else a / b
  | .sdiv => if b = 0 then 0 else a.sdiv b
  | .or => a ||| b
  | .and => a &&& b
  | .lsh => a <<< (b.toNat % w)
  | .rsh => a >>> (b.toNat % w)
  | .neg => -a
  | .mod => if b = 0 then a else a % b
  | .smod => if b = 0 then a else a.srem b
  | .xor => a ^^^ b
  | .mov => b
  | .movsx8 => (b.setWidth 8).signExtend w
  | .movsx16 => (b.setWidth 16).signExtend w
  | .movsx32 => (b.setWidth 32).signExtend w
  | .arsh => a.sshiftRight (b.toNat % w)

/-- 4.2: reverse the order of the lowest `n` bytes and clear the others. -/
def bswap (n : Nat) (x : BitVec 64) : BitVec 64 :=
  BitVec.ofNat 64 (leNat ((List.range n).map (fun (i : Nat) => (x >>> (8 * i)).setWidth 8)).reverse)

/-- Clear all but the lowest `n` bytes. -/
def trunc (n : Nat) (x : BitVec 64) : BitVec 64 := BitVec.ofNat 64 (x.toNat % 2 ^ (8 * n))

/-- Sign extend the lowest `n` bytes. -/
def sext (n : Nat) (x : BitVec 64) : BitVec 64 := (BitVec.ofNat (8 * n) x.toNat).signExtend 64

/-- 4.3: conditions. -/
inductive Cmp where
  | eq | gt | ge | set | ne | sgt | sge | lt | le | slt | sle
deriving DecidableEq

/-- 4.3: when a jump is taken. -/
def Cmp.sem {w : Nat} (c : Cmp) (a b : BitVec w) : Bool :=
  match c with
  | .eq => a == b
  | .gt => b.ult a
  | .ge => b.ule a
  | .set => a &&& b != 0
  | .ne => a != b
  | .sgt => b.slt a
  | .sge => b.sle a
  | .lt => a.ult b
  | .le => a.ule b
  | .slt => a.slt b
  | .sle => a.sle b

/-- 5.3: atomic operations. -/
inductive Atomic where
  | add | or | and | xor | fetchAdd | fetchOr | fetchAnd | fetchXor | xchg | cmpxchg | loadAcquire | storeRelease
deriving DecidableEq

/-- 5.3, and linux/bpf.h for load-acquire and store-release: an atomic operation on `n` bytes. -/
def Atomic.sem (op : Atomic) (host : ByteOrder) (n d sr : Nat) (off : BitVec 64) (s : St) : St :=
  let a := s.reg d + off
  let old := load host s.mem a n
  let v := s.reg sr
  let put (x : BitVec 64) : St := { s with mem := store host s.mem a n x }
  match op with
  | .add => put (old + v)
  | .or => put (old ||| v)
  | .and => put (old &&& v)
  | .xor => put (old ^^^ v)
  | .fetchAdd => (put (old + v)).set sr old
  | .fetchOr => (put (old ||| v)).set sr old
  | .fetchAnd => (put (old &&& v)).set sr old
  | .fetchXor => (put (old ^^^ v)).set sr old
  | .xchg => (put v).set sr old
  | .cmpxchg => (if trunc n (s.reg 0) = old then put v else s).set 0 old
  | .loadAcquire => s.set d (load host s.mem (s.reg sr + off) n)
  | .storeRelease => put v

/-- 3: an instruction as it is encoded. `imm2`: the second immediate of a wide instruction. -/
structure Raw where
  code : Nat
  dst : Nat
  src : Nat
  off : BitVec 16
  imm : BitVec 32
  imm2 : Option (BitVec 32)

/-- 3.1: the encoding. Only 64 bit immediates are wide. -/
def decode (host : ByteOrder) (l : List Byte) : Option Raw :=
  match l with
  | [c, r, o0, o1, i0, i1, i2, i3] =>
    if c.toNat = 24 then none
    else
      let lo := r.toNat % 16
      let hi := r.toNat / 16
      some ⟨c.toNat, if host = .little then lo else hi, if host = .little then hi else lo, host.get16 o0 o1, host.get32 i0 i1 i2 i3, none⟩
  | [c, r, o0, o1, i0, i1, i2, i3, z0, z1, z2, z3, j0, j1, j2, j3] =>
    if c.toNat = 24 ∧ [z0, z1, z2, z3] = [0, 0, 0, 0] then
      let lo := r.toNat % 16
      let hi := r.toNat / 16
      some ⟨c.toNat, if host = .little then lo else hi, if host = .little then hi else lo, host.get16 o0 o1, host.get32 i0 i1 i2 i3, some (host.get32 j0 j1 j2 j3)⟩
    else none
  | _ => none

/-- 4.1: operations with offset 0. -/
def aluOf0 (code : Nat) : Option Alu :=
  match code with
  | 0 => some .add
  | 1 => some .sub
  | 2 => some .mul
  | 3 => some .div
  | 4 => some .or
  | 5 => some .and
  | 6 => some .lsh
  | 7 => some .rsh
  | 8 => some .neg
  | 9 => some .mod
  | 10 => some .xor
  | 11 => some .mov
  | 12 => some .arsh
  | _ => none

/-- 4.1: the operation with a code and an offset. Neg has no register form, moves with sign extension no other. -/
def aluOf (code off : Nat) (isReg wide : Bool) : Option Alu :=
  if off = 0 then (if code = 8 ∧ isReg then none else aluOf0 code)
  else if off = 1 then (if code = 3 then some .sdiv else if code = 9 then some .smod else none)
  else if code = 11 ∧ isReg then
    (if off = 8 then some .movsx8 else if off = 16 then some .movsx16 else if off = 32 ∧ wide then some .movsx32 else none)
  else none

/-- 4.1, 4.2: arithmetic. -/
def execAlu (host : ByteOrder) (r : Raw) (s : St) (wide isReg : Bool) : Option Out :=
  if r.code / 16 = 13 then
    if r.src ≠ 0 ∨ r.off ≠ 0 ∨ ¬(r.imm = 16 ∨ r.imm = 32 ∨ r.imm = 64) ∨ (wide ∧ isReg) then none
    else
      let n := r.imm.toNat / 8
      let swap := wide || ((if isReg then ByteOrder.big else .little) != host)
      some (.next ((s.set r.dst (if swap then bswap n (s.reg r.dst) else trunc n (s.reg r.dst))).adv 1))
  else
    match aluOf (r.code / 16) r.off.toNat isReg wide with
    | none => none
    | some op =>
      if (isReg ∧ r.imm ≠ 0) ∨ (isReg = false ∧ r.src ≠ 0) ∨ (op = .neg ∧ r.imm ≠ 0) then none
      else if wide then some (.next ((s.set r.dst (op.sem (s.reg r.dst) (if isReg then s.reg r.src else r.imm.signExtend 64))).adv 1))
      else some (.next ((s.set r.dst ((op.sem ((s.reg r.dst).setWidth 32) (if isReg then (s.reg r.src).setWidth 32 else r.imm)).setWidth 64)).adv 1))

/-- 4.3: the condition with a code. -/
def cmpOf (code : Nat) : Option Cmp :=
  match code with
  | 1 => some .eq
  | 2 => some .gt
  | 3 => some .ge
  | 4 => some .set
  | 5 => some .ne
  | 6 => some .sgt
  | 7 => some .sge
  | 10 => some .lt
  | 11 => some .le
  | 12 => some .slt
  | 13 => some .sle
  | _ => none

/-- 4.3: jumps. -/
def execJump (r : Raw) (s : St) (wide isReg : Bool) : Option Out :=
  if r.code / 16 = 0 then
    if isReg ∨ r.dst ≠ 0 ∨ r.src ≠ 0 then none
    else if wide then (if r.imm = 0 then some (.next (s.adv (1 + r.off.toInt))) else none)
    else (if r.off = 0 then some (.next (s.adv (1 + r.imm.toInt))) else none)
  else if r.code / 16 = 8 then
    if ¬wide ∨ isReg ∨ r.dst ≠ 0 ∨ r.off ≠ 0 then none
    else if r.src = 0 then some (.helper r.imm (s.adv 1))
    else if r.src = 1 then some (.call (s.pc + 1 + r.imm.toInt) (s.adv 1))
    else if r.src = 2 then some (.kfunc r.imm (s.adv 1))
    else none
  else if r.code / 16 = 9 then
    if ¬wide ∨ isReg ∨ r.dst ≠ 0 ∨ r.src ≠ 0 ∨ r.off ≠ 0 ∨ r.imm ≠ 0 then none else some (.exit (s.reg 0))
  else
    match cmpOf (r.code / 16) with
    | none => none
    | some c =>
      if (isReg ∧ r.imm ≠ 0) ∨ (isReg = false ∧ r.src ≠ 0) then none
      else
        let taken := if wide then c.sem (s.reg r.dst) (if isReg then s.reg r.src else r.imm.signExtend 64)
          else c.sem ((s.reg r.dst).setWidth 32) (if isReg then (s.reg r.src).setWidth 32 else r.imm)
        some (.next (s.adv (if taken then 1 + r.off.toInt else 1)))

/-- 5: sizes in bytes. -/
def sizeOf (code : Nat) : Nat :=
  match code / 8 % 4 with
  | 0 => 4
  | 1 => 2
  | 2 => 1
  | _ => 8

/-- 5.3: the atomic operation an immediate stands for. -/
def atomicOf (imm n : Nat) : Option Atomic :=
  if imm = 0x100 then some .loadAcquire
  else if imm = 0x110 then some .storeRelease
  else if n < 4 then none
  else
    match imm with
    | 0x00 => some .add
    | 0x40 => some .or
    | 0x50 => some .and
    | 0xa0 => some .xor
    | 0x01 => some .fetchAdd
    | 0x41 => some .fetchOr
    | 0x51 => some .fetchAnd
    | 0xa1 => some .fetchXor
    | 0xe1 => some .xchg
    | 0xf1 => some .cmpxchg
    | _ => none

/-- 5: loads and stores. The old instructions for packets (5.5) put their result in R0. -/
def execMem (host : ByteOrder) (r : Raw) (s : St) : Option Out :=
  let n := sizeOf r.code
  let off := r.off.signExtend 64
  match r.code % 8, r.code / 32 with
  | 0, 0 =>
    if r.off ≠ 0 then none
    else
      match r.imm2, r.src with
      | some hi, 0 => some (.next ((s.set r.dst (hi ++ r.imm)).adv 2))
      | some hi, 1 => if hi = 0 then some (.map r.dst r.imm none (s.adv 2)) else none
      | some hi, 2 => some (.map r.dst r.imm (some hi) (s.adv 2))
      | _, _ => none
  | 0, 1 =>
    if r.dst ≠ 0 ∨ r.src ≠ 0 ∨ r.off ≠ 0 ∨ n = 8 then none
    else some (.next ((s.set 0 (load .big s.pkt (r.imm.signExtend 64) n)).adv 1))
  | 0, 2 =>
    if r.dst ≠ 0 ∨ r.off ≠ 0 ∨ n = 8 then none
    else some (.next ((s.set 0 (load .big s.pkt (s.reg r.src + r.imm.signExtend 64) n)).adv 1))
  | 1, 3 => if r.imm ≠ 0 then none else some (.next ((s.set r.dst (load host s.mem (s.reg r.src + off) n)).adv 1))
  | 1, 4 =>
    if r.imm ≠ 0 ∨ n = 8 then none
    else some (.next ((s.set r.dst (sext n (load host s.mem (s.reg r.src + off) n))).adv 1))
  | 2, 3 => if r.src ≠ 0 then none else some (.next ({ s with mem := store host s.mem (s.reg r.dst + off) n (r.imm.signExtend 64) }.adv 1))
  | 3, 3 => if r.imm ≠ 0 then none else some (.next ({ s with mem := store host s.mem (s.reg r.dst + off) n (s.reg r.src) }.adv 1))
  | 3, 6 =>
    match atomicOf r.imm.toNat n with
    | none => none
    | some op => some (.next ((op.sem host n r.dst r.src off s).adv 1))
  | _, _ => none

/-- Execute an instruction; `none` if it isn't valid. There are registers R0 to R10. -/
def exec (host : ByteOrder) (r : Raw) (s : St) : Option Out :=
  let isReg := r.code / 8 % 2 == 1
  if r.dst > 10 ∨ r.src > 10 then none
  else
    match r.code % 8 with
    | 4 => execAlu host r s false isReg
    | 7 => execAlu host r s true isReg
    | 5 => execJump r s true isReg
    | 6 => execJump r s false isReg
    | _ => execMem host r s

/-- Run the bytes of one instruction. -/
def run (host : ByteOrder) (l : List Byte) (s : St) : Option Out :=
  match decode host l with
  | none => none
  | some r => exec host r s

end Ebpf.Isa
