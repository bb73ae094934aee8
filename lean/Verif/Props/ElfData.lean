import Verif.Props.ElfCalls
/-!
# C66: references to variables and maps; counterexamples
-/
namespace Ebpf.Elf
open Ebpf.Asm Ebpf.LinkerFix Ebpf.Elf.Spec Ebpf.Linker.Spec

/-- What an instruction becomes, for every instruction of every loaded function. -/
theorem loaded_instructions {o : Object} {bo : ByteOrder} {progs : List (String × Bool × List LIns)} (h : loadObject o bo = .ok progs)
    (wf : WellFormed o) {name : String} {x : Bool} {f : List LIns} (hl : progs.lookup name = some (x, f)) :
    ∃ (l : List (Nat × Sec)) (k off : Nat) (raw : List Ins), readSecs o o.secs = .ok l ∧ CodeAt o bo ⟨k, off⟩ name raw ∧ MadeOf name raw f ∧
      ∀ (n : Nat) (i : Ins), raw[n]? = some i → ∃ j : LIns, f[n]? = some j ∧
        ∀ r, Relocation o k (off + offsetOf raw n) r → relocateInstruction (codeOf o l) (freshIns name n i) r = .ok j := by
  obtain ⟨l, F⟩ := loadObject_facts h
  obtain ⟨k, sec, off, s, hk, hp, hs, hn, hx, hf⟩ := F.only name x f (lookup_pair hl)
  obtain ⟨y1, y2, y3, y4, y5, y6, f', raw', y7, y8, y9⟩ := symbol_loaded F hk hp hs
  obtain ⟨v1, v2, v3, raw, v4, v5, v6, v7⟩ := loadFunction_spec _ _ _ _ _ hf
  obtain ⟨rs, hrs, hread⟩ := raw_of F.read hk
  obtain ⟨s1, s2, s3, s4, s5, s6⟩ := readSec_spec hread
  have hcode : CodeAt o bo ⟨k, s.value.toNat⟩ name raw := by
    refine ⟨rs, s, hrs, by rw [← s1]; exact hp, y1, y2, hn, rfl, ?_, by rw [← s3]; exact v3, by rw [← s3]; exact v4, v5⟩
    rcases y4.2 with h' | h'
    · exact Or.inl h'
    · exact Or.inr h'.1
  rw [hn] at v6
  refine ⟨l, k, s.value.toNat, raw, F.read, hcode, v6, ?_⟩
  intro n i hi
  obtain ⟨j, hj, hres⟩ := v7 n i hi
  have hoff : s.value + BitVec.ofNat 64 (offsetOf raw n) = BitVec.ofNat 64 (s.value.toNat + offsetOf raw n) := by
    rw [BitVec.ofNat_add, BitVec.ofNat_toNat, BitVec.setWidth_eq]
  rw [hoff, hn] at hres
  refine ⟨j, hj, ?_⟩
  intro r hr
  unfold resolveOne at hres
  rw [relocation_found wf hrs hread hr] at hres
  exact hres

theorem section_name {o : Object} (wf : WellFormed o) {l : List (Nat × Sec)} (hr : readSecs o o.secs = .ok l) {k : Nat} {raw : RawSec}
    (h : (k, raw) ∈ o.secs) : ∃ sec, (codeOf o l).sections k = some sec ∧ sec.kind = raw.kind ∧ sec.name = raw.name := by
  obtain ⟨sec, hs, hl, hlk⟩ := section_of hr wf h
  exact ⟨sec, hlk, (readSec_spec hs).1, (readSec_spec hs).2.1⟩

theorem setWidth_of_nat (v : BitVec 64) (hv : v.toNat < 2 ^ 32) : (v.setWidth 32).toNat = v.toNat := by
  rw [BitVec.toNat_setWidth]; omega

theorem shift_toNat (x : BitVec 32) : ((x.setWidth 64) <<< 32).toNat = x.toNat * 2 ^ 32 := by
  have := x.isLt
  rw [BitVec.toNat_shiftLeft, BitVec.toNat_setWidth, Nat.shiftLeft_eq]
  omega

/-- C66 (partial): variables. After loading, an instruction with a relocation to a data section is a load from the map of that section, at the
offset of the variable (the upper half of the constant; the lower half is where the map goes, zero). Missing, because false: symbols with an
addend (`data_addend_dropped`); offsets of 2^32 and more. -/
theorem variables_resolve_partial (o : Object) (bo : ByteOrder) (progs : List (String × Bool × List LIns)) (h : loadObject o bo = .ok progs)
    (wf : WellFormed o) (name : String) (x : Bool) (f : List LIns) (hl : progs.lookup name = some (x, f)) :
    ∃ (k off : Nat) (raw : List Ins), CodeAt o bo ⟨k, off⟩ name raw ∧ MadeOf name raw f ∧
      ∀ (n : Nat) (i : Ins), raw[n]? = some i → ∃ j : LIns, f[n]? = some j ∧
        (∀ r d, Relocation o k (off + offsetOf raw n) r → (r.sec, d) ∈ o.secs → d.kind = .data → (r.typ = .sect ∨ i.cons.toInt = 0) →
          0 ≤ (loadTarget r i).off → (loadTarget r i).off < 2 ^ 32 →
          j.p.ref = d.name ∧ j.p.ins.src = 2#8 ∧ (j.p.ins.cons.toNat : Int) = (loadTarget r i).off * 2 ^ 32) ∧
        (∀ r d, Relocation o k (off + offsetOf raw n) r → (r.sec, d) ∈ o.secs → (d.kind = .maps ∨ d.kind = .btfMaps) →
          j.p.ref = r.name ∧ j.p.ins.src = 1#8 ∧ j.p.ins.cons = i.cons ∧ r.bind = .glob) := by
  obtain ⟨l, k, off, raw, hread, hcode, hmade, hins⟩ := loaded_instructions h wf hl
  refine ⟨k, off, raw, hcode, hmade, ?_⟩
  intro n i hi
  obtain ⟨j, hj, hres⟩ := hins n i hi
  refine ⟨j, hj, ?_, ?_⟩
  · intro r d hr hd hk hwhat h0 h1
    have hres := hres r hr
    obtain ⟨sec, hs, hsk, hsn⟩ := section_name wf hread hd
    unfold relocateInstruction at hres
    rw [hs] at hres
    simp only [hsk, hk] at hres
    unfold relocData at hres
    have hj1 : (freshIns name n i).p.ins = i := rfl
    rw [hj1] at hres
    have hrm : r ∈ o.syms := by
      obtain ⟨_, m, _, _, _, hm⟩ := hr
      exact List.mem_of_getElem? hm
    have key : ∃ v : BitVec 64, dataOffset i.cons r = .ok (v.setWidth 32) ∧ (v.toNat : Int) = (loadTarget r i).off := by
      cases ho : dataOffset i.cons r with
      | error e => rw [ho] at hres; cases hres
      | ok v =>
        unfold dataOffset at ho
        unfold loadTarget at h0 h1 ⊢
        cases ht : r.typ with
        | sect =>
          rw [ht] at ho
          simp only at ho
          by_cases hb : r.bind ≠ .loc
          · rw [if_pos hb] at ho; cases ho
          · rw [if_neg hb] at ho
            simp only [Except.ok.injEq] at ho
            refine ⟨i.cons, by rw [ho], ?_⟩
            simp only [wf.sections r hrm ht] at h0 h1 ⊢
            have e0 : ((0#64).toNat : Int) = 0 := by decide
            have e1 := toNat_of_toInt64 i.cons
            rw [if_neg (by omega)] at e1
            omega
        | object =>
          rw [ht] at ho
          simp only at ho
          split at ho
          · cases ho
          · simp only [Except.ok.injEq] at ho
            refine ⟨r.value, by rw [ho], ?_⟩
            rcases hwhat with hw | hw
            · rw [ht] at hw; cases hw
            · simp only; omega
        | notype =>
          rw [ht] at ho
          simp only at ho
          split at ho
          · cases ho
          · simp only [Except.ok.injEq] at ho
            refine ⟨r.value, by rw [ho], ?_⟩
            rcases hwhat with hw | hw
            · rw [ht] at hw; cases hw
            · simp only; omega
        | func => rw [ht] at ho; cases ho
        | other => rw [ht] at ho; cases ho
    obtain ⟨v, hv, hvt⟩ := key
    rw [hv] at hres
    simp only [Except.ok.injEq] at hres
    rw [← hres]
    refine ⟨hsn, rfl, ?_⟩
    show ((((v.setWidth 32).setWidth 64) <<< 32).toNat : Int) = _
    rw [shift_toNat, setWidth_of_nat v (by omega), ← hvt]
    omega
  · intro r d hr hd hk
    have hres := hres r hr
    obtain ⟨sec, hs, hsk, hsn⟩ := section_name wf hread hd
    unfold relocateInstruction at hres
    rw [hs] at hres
    have hm : relocMap (freshIns name n i) r = .ok j := by
      rcases hk with hk | hk
      · simp only [hsk, hk] at hres; exact hres
      · simp only [hsk, hk] at hres; exact hres
    unfold relocMap at hm
    by_cases hb : r.bind ≠ .glob
    · rw [if_pos hb] at hm; cases hm
    · rw [if_neg hb] at hm
      split at hm
      · cases hm
      · simp only [Except.ok.injEq] at hm
        rw [← hm]
        refine ⟨rfl, rfl, rfl, ?_⟩
        cases hh : r.bind <;> simp_all

/-! ## counterexamples and examples -/

/-- A function symbol. -/
def exFn (n : String) (sec : Nat) (v sz : BitVec 64) (b : Bind := .glob) : Sym := ⟨n, .func, b, sec, v, sz⟩

/-- `call imm`, `r0 = imm; exit` and `exit` in little endian. -/
def exCall (imm : BitVec 32) : Bytes := [0x85, 0x10, 0, 0] ++ ByteOrder.little.put32 imm
/-- `r0 = imm ll`. -/
def exLd (imm : BitVec 32) : Bytes := [0x18, 0, 0, 0] ++ ByteOrder.little.put32 imm ++ [0, 0, 0, 0, 0, 0, 0, 0]
/-- `exit`. -/
def exExit : Bytes := [0x95, 0, 0, 0, 0, 0, 0, 0]

/-- A program in section 1 (`xdp`) with a call, and two functions `f`, `g` in `.text` (section 2). -/
def exObject (r : Sym) (imm : BitVec 32) : Object :=
  { secs := [(0, { kind := .undef, name := "" }),
      (1, { kind := .program, name := "xdp", data := exCall imm ++ exExit, rels := [(0#64, 4#32)] }),
      (2, { kind := .program, name := ".text", data := exExit ++ exExit })]
    syms := [exFn "prog" 1 0 16, exFn "f" 2 0 8, exFn "g" 2 8 8, r] }

/-- Name, reference and constant of the instructions of a function of the result. -/
def exRefs (o : Object) (n : String) : Option (List (String × String × BitVec 64)) :=
  match loadObject o .little with
  | .ok progs => (progs.lookup n).map fun e => e.2.map fun i => (i.p.sym, i.p.ref, i.p.ins.cons)
  | .error _ => none

/-- A call of `.text + 8` through the section symbol reaches `g`. -/
example : exRefs (exObject ⟨".text", .sect, .loc, 2, 0, 0⟩ 0) "prog" =
    some [("prog", "g", BitVec.allOnes 64), ("", "", 0#64)] := by decide +kernel

/-- A call by name reaches `g`. -/
example : exRefs (exObject (exFn "g" 2 8 8) 0xffffffff) "prog" =
    some [("prog", "g", BitVec.allOnes 64), ("", "", 0#64)] := by decide +kernel

theorem exObject_wf : WellFormed (exObject ⟨".text", .sect, .loc, 2, 0, 0⟩ 0) ∧ NoAliases (exObject ⟨".text", .sect, .loc, 2, 0, 0⟩ 0) := by
  refine ⟨⟨by decide, by decide, by decide, ?_⟩, ?_⟩
  · intro k raw h
    simp only [exObject, List.mem_cons, Prod.mk.injEq, List.not_mem_nil, or_false] at h
    rcases h with ⟨_, rfl⟩ | ⟨_, rfl⟩ | ⟨_, rfl⟩ <;> decide
  · intro s hs t ht h1 h2
    simp only [exObject, exFn, List.mem_cons, List.not_mem_nil, or_false] at hs ht
    unfold IsFunction at h1 h2
    rcases hs with rfl | rfl | rfl | rfl <;> rcases ht with rfl | rfl | rfl | rfl <;> simp_all

/-- The object of the example meets the hypotheses of `calls_resolve_partial`. -/
example : ∃ (progs : List (String × Bool × List LIns)) (x : Bool) (f : List LIns), loadObject (exObject ⟨".text", .sect, .loc, 2, 0, 0⟩ 0) .little = .ok progs ∧ progs.lookup "prog" = some (x, f) :=
  ⟨_, _, _, rfl, rfl⟩

/-- Specification of C66 for calls, in full: whatever the symbol and the addend. -/
def CallsResolve : Prop := ∀ (o : Object) (bo : ByteOrder) (progs : List (String × Bool × List LIns)), loadObject o bo = .ok progs →
  WellFormed o → ∀ (name : String) (x : Bool) (f : List LIns), progs.lookup name = some (x, f) →
    ∃ (k off : Nat) (raw : List Ins), CodeAt o bo ⟨k, off⟩ name raw ∧ MadeOf name raw f ∧
      ∀ (n : Nat) (i : Ins), raw[n]? = some i → ∃ j : LIns, f[n]? = some j ∧
        ∀ r, Relocation o k (off + offsetOf raw n) r → HasKind o r.sec .program → IsCall i → Resolved o bo progs j (callTarget r i)

/-- The object of the counterexample: `call f+8`, which is `g`, written with the symbol `f`. -/
def exAddend : Object := exObject (exFn "f" 2 0 8) 0

theorem exAddend_wf : WellFormed exAddend := by
  refine ⟨by decide, by decide, by decide, ?_⟩
  intro k raw h
  simp only [exAddend, exObject, List.mem_cons, Prod.mk.injEq, List.not_mem_nil, or_false] at h
  rcases h with ⟨_, rfl⟩ | ⟨_, rfl⟩ | ⟨_, rfl⟩ <;> decide

/-- The call is left as `call +0` and refers to `f` by name: not a reference the linker resolves. -/
theorem call_addend_dropped : exRefs exAddend "prog" = some [("prog", "f", 0#64), ("", "", 0#64)] := by decide +kernel

/-- C66 does not hold in full: a call of a named function with an addend is not resolved. -/
theorem calls_resolve_counterexample : ¬ CallsResolve := by
  intro hall
  have hload : ∃ (progs : List (String × Bool × List LIns)) (x : Bool) (f : List LIns),
      loadObject exAddend .little = .ok progs ∧ progs.lookup "prog" = some (x, f) ∧ (f[0]?.map fun i => i.p.ins.cons) = some 0#64 := ⟨_, _, _, rfl, rfl, rfl⟩
  obtain ⟨progs, x, f, h1, h2, h3⟩ := hload
  obtain ⟨k, off, raw, ⟨sec, s, c1, c2, c3, c4, c5, c6, c7, c8, c9, c10⟩, hmade, hins⟩ := hall exAddend .little progs h1 exAddend_wf "prog" x f h2
  have hs : s = exFn "prog" 1 0 16 := by
    simp only [exAddend, exObject, exFn, List.mem_cons, List.not_mem_nil, or_false] at c3
    rcases c3 with rfl | rfl | rfl | rfl
    · rfl
    · exact absurd c5 (by decide)
    · exact absurd c5 (by decide)
    · exact absurd c5 (by decide)
  subst hs
  have hk : k = 1 := c4.symm
  subst hk
  have ho : off = 0 := by
    simp only [exFn] at c6
    have e0 : ((BitVec.toNat (0 : BitVec 64)) : Int) = 0 := by decide
    rw [e0] at c6
    omega
  subst ho
  have hsec : sec = { kind := .program, name := "xdp", data := exCall 0 ++ exExit, rels := [(0#64, 4#32)] } := by
    simp only [exAddend, exObject, List.mem_cons, Prod.mk.injEq, List.not_mem_nil, or_false] at c1
    rcases c1 with ⟨h, _⟩ | ⟨_, h⟩ | ⟨h, _⟩
    · cases h
    · exact h
    · cases h
  subst hsec
  have hraw : raw = [⟨0x85#32, 0, 1, 0, 0⟩, ⟨0x95#32, 0, 0, 0, 0⟩] := by
    have e : appendInstructions .little "linux" (((exCall 0 ++ exExit).drop (exFn "prog" 1 0 16).value.toNat).take (exFn "prog" 1 0 16).size.toNat) =
      .ok [⟨0x85#32, 0, 1, 0, 0⟩, ⟨0x95#32, 0, 0, 0, 0⟩] := rfl
    rw [e] at c9
    exact (Except.ok.inj c9).symm
  subst hraw
  obtain ⟨j, hj, hr⟩ := hins 0 ⟨0x85#32, 0, 1, 0, 0⟩ rfl
  have hrel : Relocation exAddend 1 (0 + offsetOf [⟨0x85#32, 0, 1, 0, 0⟩, ⟨0x95#32, 0, 0, 0, 0⟩] 0) (exFn "f" 2 0 8) :=
    ⟨_, 4#32, c1, List.mem_cons_self, by decide, rfl⟩
  have hkind : HasKind exAddend (exFn "f" 2 0 8).sec .program :=
    ⟨{ kind := .program, name := ".text", data := exExit ++ exExit }, by simp [exAddend, exObject, exFn], rfl⟩
  obtain ⟨t, _, _, _, href, _⟩ := hr _ hrel hkind ⟨by decide, by decide⟩
  have hc := href.2.2.1
  rw [hj] at h3
  simp only [Option.map_some, Option.some.injEq] at h3
  rw [h3] at hc
  exact absurd hc (by decide)

/-- A function pointer that names the global function `g` (at offset 8 of `.text`) becomes a pointer to `f` (at offset 0): the value of the symbol is
ignored (elf_reader.go:714). -/
theorem funcptr_wrong_function : exRefs
    { secs := [(1, { kind := .program, name := "xdp", data := exLd 0 ++ exExit, rels := [(0#64, 3#32)] }),
        (2, { kind := .program, name := ".text", data := exExit ++ exExit })]
      syms := [exFn "prog" 1 0 24, exFn "f" 2 0 8, exFn "g" 2 8 8] } "prog" =
    some [("prog", "f", BitVec.allOnes 64), ("", "", 0#64)] := by decide +kernel

/-- A relative call to a place before the start of the section becomes a call of the function at offset 0 (elf_reader.go:582-584). -/
theorem negative_call : exRefs
    { secs := [(1, { kind := .program, name := "xdp", data := exExit ++ exCall (-100#32) })]
      syms := [exFn "f" 1 0 8, exFn "prog" 1 8 8] } "prog" =
    some [("prog", "f", BitVec.allOnes 64)] := by decide +kernel

/-- Of two functions at the same place only the one that is later in the symbol table is in the result. -/
theorem alias_lost :
    let o : Object :=
      { secs := [(1, { kind := .program, name := "xdp", data := exExit })]
        syms := [exFn "prog" 1 0 8, exFn "other" 1 0 8] }
    exRefs o "prog" = none ∧ exRefs o "other" = some [("other", "", 0#64)] := by decide +kernel

/-- The addend of a reference to a variable is dropped: `&var + 8`, at offset 8 of `.data`, becomes offset 0. -/
theorem data_addend_dropped : exRefs
    { secs := [(1, { kind := .program, name := "xdp", data := exLd 8 ++ exExit, rels := [(0#64, 2#32)] }),
        (2, { kind := .data, name := ".data", data := List.replicate 16 0 })]
      syms := [exFn "prog" 1 0 24, ⟨"var", .object, .glob, 2, 0, 16⟩] } "prog" =
    some [("prog", ".data", 0#64), ("", "", 0#64)] := by decide +kernel

/-- References to variables as clang emits them. -/
example : exRefs
    { secs := [(1, { kind := .program, name := "xdp", data := exLd 8 ++ exLd 0 ++ exExit, rels := [(0#64, 2#32), (16#64, 3#32)] }),
        (2, { kind := .data, name := ".data", data := List.replicate 16 0 })]
      syms := [exFn "prog" 1 0 40, ⟨".data", .sect, .loc, 2, 0, 0⟩, ⟨"var", .object, .glob, 2, 4, 4⟩] } "prog" =
    some [("prog", ".data", 8#64 <<< 32), ("", ".data", 4#64 <<< 32), ("", "", 0#64)] := by decide +kernel

end Ebpf.Elf
