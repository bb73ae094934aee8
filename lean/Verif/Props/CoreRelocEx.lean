import Verif.Props.CoreReloc
/-!
# Concrete relocations and counterexamples (C33, C34, C35)
-/
namespace Ebpf.Btf
open Ebpf.BtfSpec Ebpf.Core

/-- A local type `s` and a target `s` in which the members of `s` have moved into nested anonymous structs, and a bitfield became wider.

    struct s { int pad; struct { int a; }; int arr[4]; unsigned b : 3; }           // 10
    struct s { struct { char x; union { int a; }; }; int arr[8]; int c; unsigned long b : 12; } // 20 -/
def exRelo : Graph Nat
  | 1 => .int [0x69] 4 1
  | 2 => .int [0x75] 4 0
  | 3 => .int [0x6c] 8 0
  | 4 => .array 1 1 4
  | 5 => .array 1 1 8
  | 6 => .typedef [0x74] 4 []
  | 10 => .struct [0x73] 28 [⟨[0x70], 1, 0, 0, []⟩, ⟨[], 11, 32, 0, []⟩, ⟨[0x72], 6, 64, 0, []⟩, ⟨[0x62], 2, 192, 3, []⟩] []
  | 11 => .struct [] 4 [⟨[0x61], 1, 0, 0, []⟩] []
  | 20 => .struct [0x73] 56 [⟨[], 21, 0, 0, []⟩, ⟨[0x72], 5, 64, 0, []⟩, ⟨[0x63], 1, 320, 0, []⟩, ⟨[0x62], 3, 357, 12, []⟩] []
  | 21 => .struct [] 8 [⟨[0x78], 1, 0, 0, []⟩, ⟨[], 22, 32, 0, []⟩] []
  | 22 => .union [] 4 [⟨[0x61], 1, 0, 0, []⟩] []
  | _ => .void

theorem exRelo_members (c : Nat) (ms : List (Member Nat)) (h : (exRelo c).members? = some ms) : c = 10 ∨ c = 11 ∨ c = 20 ∨ c = 21 ∨ c = 22 := by
  unfold exRelo at h
  split at h <;> simp [Node.members?] at h <;> simp

theorem exRelo_aligned : ByteAligned exRelo := by
  intro c ms m h hm hb
  rcases exRelo_members c ms h with rfl | rfl | rfl | rfl | rfl <;> simp only [exRelo, Node.members?, Option.some.injEq] at h <;> subst h <;>
    simp only [List.mem_cons, List.not_mem_nil, or_false] at hm
  · rcases hm with rfl | rfl | rfl | rfl <;> rfl
  · rcases hm with rfl; rfl
  · rcases hm with rfl | rfl | rfl | rfl
    · rfl
    · rfl
    · rfl
    · rcases hb with hb | ⟨c', hu, hc⟩
      · cases hb
      · have : c' = 3 := underlies_unique hu ⟨0, by omega, .refl 3, by intro w hw; have := peel_some exRelo 3 w hw; simp [exRelo, Node.peel?, Node.qualify?] at this⟩
        subst this; simp [exRelo, Node.members?] at hc
  · rcases hm with rfl | rfl <;> rfl
  · rcases hm with rfl; rfl

-- s.a, s.r[3] and s.b
example : findField exRelo 9 10 0 [1, 0] 20 = .ok ({ type := 1, offset := 4 }, { type := 1, offset := 4 }) := by decide
example : findField exRelo 9 10 0 [2, 3] 20 = .ok ({ type := 1, offset := 20 }, { type := 1, offset := 20 }) := by decide
example : findField exRelo 9 10 2 [2, 3] 20 = .ok ({ type := 1, offset := 76 }, { type := 1, offset := 132 }) := by decide
example : findField exRelo 9 10 0 [3] 20 = .ok ({ type := 2, offset := 24, bitfieldSize := 3 },
  { type := 3, offset := 40, bitfieldOffset := 37, bitfieldSize := 12 }) := by decide
-- s.p is missing, s.r[9] too
example : findField exRelo 9 10 0 [0] 20 = .error .impossible := by decide
example : findField exRelo 9 20 0 [1, 4] 10 = .error .impossible := by decide
-- the fix-ups for s.b
example : ∀ f, f = fieldFixup exRelo true → let l := { type := 2, offset := 24, bitfieldSize := 3 }
    let t := { type := 3, offset := 40, bitfieldOffset := 37, bitfieldSize := 12 }
    f .byteOffset l t = .ok ⟨.byteOffset, 24, 40, false, true⟩ ∧ f .byteSize l t = .ok ⟨.byteSize, 4, 8, false, true⟩ ∧
    f .lshift l t = .ok ⟨.lshift, 0, 15, false, true⟩ ∧ f .rshift l t = .ok ⟨.rshift, 0, 52, false, true⟩ ∧
    f .signed l t = .ok ⟨.signed, 0, 0, false, false⟩ := by rintro _ rfl; decide
example : fieldFixup exRelo false .lshift { type := 2, offset := 24, bitfieldSize := 3 }
  { type := 3, offset := 40, bitfieldOffset := 37, bitfieldSize := 12 } = .ok ⟨.lshift, 0, 37, false, true⟩ := by decide
/-- The relocated read of `s.b` yields bits 357 to 368 of the target, whatever the memory is. -/
theorem exRelo_read (mem : Bytes) (h : 56 ≤ mem.length) :
    (readField true mem 40 8 15 52 false).toNat = fieldValue true mem 357 12 ∧ (readField false mem 40 8 37 52 false).toNat = fieldValue false mem 357 12 :=
  ⟨readField_unsigned true mem 40 8 37 12 (by omega) (by omega) (by omega) (by omega),
   readField_unsigned false mem 40 8 37 12 (by omega) (by omega) (by omega) (by omega)⟩

/-- A packed struct: `struct { unsigned a : 30; unsigned b : 8; }`. -/
def exPacked : Graph Nat
  | 1 => .int [0x75] 4 0
  | 10 => .struct [0x73] 5 [⟨[0x61], 1, 0, 30, []⟩, ⟨[0x62], 1, 30, 8, []⟩] []
  | _ => .void

/-- C34 fails for a bitfield that straddles the boundary of its type: the load doesn't cover it. The bits of `b` in memory are all ones, the
relocated read yields 3. The size of the load isn't increased, unlike in libbpf. -/
theorem straddling_bitfield_misread :
    ∃ lf tf off size lsh rsh, findField exPacked 9 10 0 [1] 10 = .ok (lf, tf) ∧
      fieldFixup exPacked true .byteOffset lf tf = .ok off ∧ fieldFixup exPacked true .byteSize lf tf = .ok size ∧
      fieldFixup exPacked true .lshift lf tf = .ok lsh ∧ fieldFixup exPacked true .rshift lf tf = .ok rsh ∧
      (readField true [0xff, 0xff, 0xff, 0xff, 0xff] off.target.toNat size.target.toNat lsh.target rsh.target false).toNat = 3 ∧
      fieldValue true [0xff, 0xff, 0xff, 0xff, 0xff] 30 8 = 255 :=
  ⟨{ type := 1, offset := 0, bitfieldOffset := 30, bitfieldSize := 8 }, { type := 1, offset := 0, bitfieldOffset := 30, bitfieldSize := 8 },
    ⟨.byteOffset, 0, 0, false, true⟩, ⟨.byteSize, 4, 4, false, true⟩, ⟨.lshift, 0, 26, false, true⟩, ⟨.rshift, 0, 56, false, true⟩,
    by decide, by decide, by decide, by decide, by decide, by decide, by decide⟩

/-- A struct with 33 anonymous structs inside, the last of which contains `z`. -/
def exWide : Graph Nat
  | 100 => .struct [0x73] 132 ((List.range 33).map fun i => ⟨[], i, BitVec.ofNat 32 (32 * i), 0, []⟩) []
  | 101 => .int [0x69] 4 1
  | 102 => .struct [0x73] 4 [⟨[0x7a], 101, 0, 0, []⟩] []
  | i => if i < 32 then .struct [] 4 [⟨[0x78], 101, 0, 0, []⟩] [] else if i = 32 then .struct [] 4 [⟨[0x7a], 101, 0, 0, []⟩] [] else .void

/-- C35 is limited to 32 composites: a member that exists isn't found, and the relocation is an error, not merely impossible. -/
theorem wide_struct_fails :
    Inside exWide [0x7a] 100 1024 ⟨[0x7a], 101, 0, 0, []⟩ ∧ findMember exWide 100 [0x7a] = .error .other ∧
    findField exWide 9 102 0 [0] 100 = .error .other := by
  refine ⟨?_, by decide +kernel, by decide +kernel⟩
  refine Inside.anon (a := ⟨[], 32, 1024, 0, []⟩) (c' := 32) (o := 0) (m := ⟨[0x7a], 101, 0, 0, []⟩) rfl (by decide +kernel) rfl
    ⟨0, by omega, .refl 32, by intro w hw; have := peel_some exWide 32 w hw; simp [exWide, Node.peel?, Node.qualify?] at this⟩
    (Inside.here (m := ⟨[0x7a], 101, 0, 0, []⟩) rfl (by simp) rfl)

/-- Two targets and a local type with a member `a` at offset 4:

    struct s { int p; int a; }      // 10, local
    struct s { int p; int a; }      // 20
    struct s { int q; int a; }      // 30
    struct s { int p; int b; int a; } // 40 -/
def exTargets : Graph Nat
  | 1 => .int [0x69] 4 1
  | 10 => .struct [0x73] 8 [⟨[0x70], 1, 0, 0, []⟩, ⟨[0x61], 1, 32, 0, []⟩] []
  | 20 => .struct [0x73] 8 [⟨[0x70], 1, 32, 0, []⟩, ⟨[0x61], 1, 0, 0, []⟩] []
  | 30 => .struct [0x73] 8 [⟨[0x71], 1, 0, 0, []⟩, ⟨[0x61], 1, 32, 0, []⟩] []
  | 40 => .struct [0x73] 12 [⟨[0x71], 1, 0, 0, []⟩, ⟨[0x62], 1, 32, 0, []⟩, ⟨[0x61], 1, 64, 0, []⟩] []
  | _ => .void

/-- The relocations of a program that checks whether `s.p` exists and reads `s.a`. -/
def exRelos : List (Relo Nat) := [⟨10, 0, [0], .fieldExists, 1⟩, ⟨10, 0, [1], .byteOffset, 1⟩]

/-- The evaluation of a relocation, as used by `calculateFixups`. -/
def exEval (r : Relo Nat) (t : Nat) : Except Unit Fixup :=
  match calculateFixup exTargets 9 true (fun _ => .notFound) r t with
  | some (.ok f) => .ok f
  | _ => .error ()

/-- C33, with real structs: two candidates without `s.p` disagree about the offset of `s.a`, a third one has both. Whether the program
loads depends on whether the good candidate comes before the tie. -/
theorem struct_order_matters :
    calculateFixups (fun r : Relo Nat => r.kind) exEval exRelos [20, 30, 40] =
      .ok [⟨.fieldExists, 1, 1, false, false⟩, ⟨.byteOffset, 4, 0, false, false⟩] ∧
    calculateFixups (fun r : Relo Nat => r.kind) exEval exRelos [30, 40, 20] = .error .ambiguous := by decide +kernel

end Ebpf.Btf
