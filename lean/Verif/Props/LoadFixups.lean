import Verif.Props.KfuncFixups
import Verif.Props.KsymFixups
import Verif.Props.Linker
/-!
# C61-C64: further properties of the fixups made before a program is loaded
-/
set_option linter.unusedSimpArgs false
namespace Ebpf.LinkerFix
open Ebpf.Asm

/-! ## C62: symbols and references survive -/

/-- **C62.** As long as no weak kfunc call carries a symbol or a reference of its own, linking kfuncs
keeps every symbol and reference in place, so later resolution of calls is not affected. -/
theorem kfunc_keeps_symbols_partial (native : String) (o : Oracle) (n : Nat) (l : List LIns) (handles : List Nat) (l' : List LIns)
    (hs : Handles) (h : fixupKfuncs native o n l = some (.ok (handles, l'), hs))
    (hplain : ∀ i ∈ l, ∀ m, i.kfunc = some m → m.weak = true → i.p.ins.isKfuncCall = true → i.p.sym = "" ∧ i.p.ref = "") :
    l'.map (fun i => (i.p.sym, i.p.ref)) = l.map (fun i => (i.p.sym, i.p.ref)) := by
  obtain ⟨_, _, hlen, hall⟩ := kfunc_sound native o n l handles l' hs h
  apply List.ext_getElem?
  intro k
  rw [List.getElem?_map, List.getElem?_map]
  cases hi : l[k]? with
  | none =>
    rw [List.getElem?_eq_none_iff] at hi
    rw [List.getElem?_eq_none (by omega)]
  | some i =>
    obtain ⟨j, hj, hout⟩ := hall k i hi
    rw [hj]
    simp only [Option.map_some, Option.some.injEq]
    cases hout with
    | other => rfl
    | resolved m id module idx src j h1 h2 h3 h4 h5 h6 h7 => subst h7; rfl
    | poisoned m c j h1 h2 h3 h4 h5 h6 =>
      subst h6
      obtain ⟨ha, hb⟩ := hplain i (List.mem_of_getElem? hi) m h1 h2 h4
      rw [ha, hb]
    | zeroed m j h1 h2 h3 h4 h5 => subst h5; rfl

/-- `main` calls `f`; `f` starts with a weak call of a kfunc. -/
def weakFirst : List LIns :=
  [{ p := { ins := ⟨0x85#32, 0#8, 1#8, 0#16, BitVec.allOnes 64⟩, sym := "main", ref := "f" } },
   { p := { ins := ⟨0x95#32, 0#8, 0#8, 0#16, 0#64⟩ } },
   { p := { ins := ⟨0x85#32, 0#8, 2#8, 0#16, BitVec.allOnes 64⟩, sym := "f" }, kfunc := some ⟨true, []⟩ },
   { p := { ins := ⟨0x95#32, 0#8, 0#8, 0#16, 0#64⟩ } }]

/-- **C62, the other case.** A function that starts with a weak call of a kfunc the kernel does not
have loses its symbol. The linked program could be encoded before, and cannot any more: loading a
program that merely calls such a function fails with an unsatisfied reference. -/
theorem kfunc_keeps_symbols_counterexample :
    (∃ r, encodeFunctionReferences (weakFirst.map (·.p)) = .ok r) ∧
    ∃ n l' hs, fixupKfuncs Platform.Linux (fun _ _ => .notFound) n weakFirst = some (.ok ([], l'), hs) ∧
      encodeFunctionReferences (l'.map (·.p)) = .error .unsatisfiedReference := by
  refine ⟨⟨_, rfl⟩, 5, weakFirst.set 2 (poisonCall 0xdedc0de#32), {}, ?_, ?_⟩
  · decide
  · decide

/-! ## C62: the limit on modules -/

/-- A call of a kfunc. -/
def kcall : LIns := { p := { ins := ⟨0x85#32, 0#8, 2#8, 0#16, BitVec.allOnes 64⟩ }, kfunc := some ⟨false, []⟩ }

/-- A kernel with the function in a module; every lookup gives a new handle. -/
def inModule : Oracle := fun k _ => .found (some 7#32) (some (k + 10)) true

attribute [local irreducible] maxModules in
theorem kcall_run (d : Nat) : ∀ s : KState, s.pos + d = maxModules → s.handles.length = s.pos →
    s.acquired.length = s.pos → s.insns.length = maxModules + 1 → (∀ k, s.pos ≤ k → k ≤ maxModules → s.insns[k]? = some kcall) →
    ∃ s', kfuncRun Platform.Linux inModule (d + 1) s = .failed .tooMany s' ∧
      s'.handles.length = maxModules ∧ s'.acquired.length = maxModules + 1 := by
  induction d with
  | zero =>
    intro s h1 h2 h3 h4 h5
    have hc := h5 s.pos (Nat.le_refl _) (by omega)
    unfold kfuncRun kfuncStep
    rw [hc]
    simp only [kcall, inModule, addHandle]
    rw [if_pos (by omega)]
    exact ⟨_, rfl, by simp only; omega, by simp; omega⟩
  | succ d ih =>
    intro s h1 h2 h3 h4 h5
    have hc := h5 s.pos (Nat.le_refl _) (by omega)
    unfold kfuncRun kfuncStep
    rw [hc]
    simp only [kcall, inModule, addHandle]
    rw [if_neg (by omega)]
    simp only [Bool.not_true, Bool.false_eq_true, if_false, KState.advance, KState.hasNext, KState.next, List.length_set]
    have hn : s.pos + 1 < s.insns.length := by omega
    simp only [hn, decide_true, if_true]
    apply ih
    · simp only; omega
    · simp [h2]
    · simp [h3]
    · simp [h4]
    · intro k hk hk'
      simp only at hk ⊢
      rw [getElem?_set_ne' _ _ _ _ (by omega)]
      exact h5 k (by omega) hk'

attribute [local irreducible] maxModules in
/-- **C62, the other case.** With one module kfunc call more than fits the table, linking fails as it
should, but the handle acquired last is neither closed nor returned. -/
theorem kfunc_error_closes_counterexample :
    ∃ n hs, fixupKfuncs Platform.Linux inModule n (List.replicate (maxModules + 1) kcall) = some (.error .tooMany, hs) ∧
      hs.acquired.length = hs.closed.length + 1 := by
  have main : ∀ N, maxModules = N → ∃ n hs, fixupKfuncs Platform.Linux inModule n (List.replicate (N + 1) kcall) = some (.error .tooMany, hs) ∧
      hs.acquired.length = hs.closed.length + 1 := by
    intro N hN
    have hst : kfuncStart (List.replicate (N + 1) kcall) = some { insns := List.replicate (N + 1) kcall } := by
      unfold kfuncStart firstKfunc
      rw [List.replicate_succ, List.findIdx?_cons]
      simp only [kcall, Option.isSome_some, if_true, Option.map_some]
    obtain ⟨s', h1, h2, h3⟩ := kcall_run N { insns := List.replicate (N + 1) kcall } (by simp [hN]) rfl rfl (by simp [hN])
      (by intro k _ hk; simp only; rw [List.getElem?_replicate]; rw [if_pos (by omega)])
    refine ⟨N + 1, ⟨s'.acquired, s'.handles⟩, ?_, by simp only; omega⟩
    unfold fixupKfuncs
    rw [hst]
    simp only
    rw [h1]
  exact main _ rfl

/-- Specification: the rule of the kernel (verifier.c `check_ld_imm`) that a 64 bit load has no
offset. -/
def ValidLdImm64 (i : Ins) : Prop := i.op = 0x18#32 → i.off = 0#16

/-- **C62.** A load of the address of a kfunc that lives in a module gets a non-zero offset, which the
kernel rejects, although the instruction was fine before. -/
theorem kfunc_load_offset_counterexample :
    ∃ (l l' : List LIns) (handles : List Nat) (hs : Handles), (∀ i ∈ l, ValidLdImm64 i.p.ins) ∧
      fixupKfuncs Platform.Linux inModule 3 l = some (.ok (handles, l'), hs) ∧ ¬ ∀ i ∈ l', ValidLdImm64 i.p.ins := by
  refine ⟨[{ weakLoad with kfunc := some ⟨false, []⟩ }], [setKfunc { weakLoad with kfunc := some ⟨false, []⟩ } 7#32 1], [10], ⟨[10], []⟩,
    ?_, by decide, ?_⟩
  · intro i hi; simp at hi; subst hi; unfold ValidLdImm64; decide
  · intro h
    have := h _ List.mem_cons_self
    unfold ValidLdImm64 at this
    revert this; decide

/-- A kernel with one function in the kernel, one in a module, one missing. -/
def exKernel : Oracle := fun k n =>
  if n = [1#8] then .found (some 100#32) none true
  else if n = [2#8] then .found (some 200#32) (some (k + 10)) true
  else .notFound

/-- A concrete run: a call into the kernel, two calls into a module, a weak call. -/
example : fixupKfuncs Platform.Linux exKernel 10
    [{ kcall with kfunc := some ⟨false, [1#8]⟩ }, { kcall with kfunc := some ⟨false, [2#8]⟩ }, { kcall with kfunc := none },
     { kcall with kfunc := some ⟨true, [3#8]⟩ }, { kcall with kfunc := some ⟨false, [2#8]⟩ }] =
    some (.ok ([11, 13],
      [setKfunc { kcall with kfunc := some ⟨false, [1#8]⟩ } 100#32 0, setKfunc { kcall with kfunc := some ⟨false, [2#8]⟩ } 200#32 1,
       { kcall with kfunc := none }, poisonCall 0xdedc0de#32, setKfunc { kcall with kfunc := some ⟨false, [2#8]⟩ } 200#32 2]),
      ⟨[11, 13], []⟩) := by decide

/-! ## C61: examples -/

/-- A program with two references to a module variable, one to a missing weak one, one untyped. -/
def exKsyms : List LIns :=
  let ld : PIns := { ins := ⟨0x18#32, 1#8, 0#8, 0#16, 0#64⟩ }
  [{ p := ld, ksym := some ⟨false, [2#8], [2#8], false⟩ }, { p := ld }, { p := ld, ksym := some ⟨true, [9#8], [9#8], false⟩ },
   { p := ld, ksym := some ⟨false, [2#8], [2#8], false⟩ }, { p := ld, ksym := some ⟨false, [5#8], [5#8], true⟩ }]

example : ∃ l', applyTyped exKernel exKsyms = (.ok ([10], l'), ⟨[10], []⟩) ∧
    l'.map (fun i => i.p.ins.cons) = [0xa000000c8#64, 0#64, 0#64, 0xa000000c8#64, 0#64] ∧
    l'.map (fun i => i.p.ins.src) = [3#8, 0#8, 0#8, 3#8, 0#8] := ⟨_, rfl, by decide, by decide⟩

/-! ## C63: .kconfig -/

theorem kconfigLoop_ok (spec : Nat) (fd : Int) (l : List LIns) : ∀ l', kconfigLoop spec fd l = .ok l' →
    l'.length = l.length ∧ ∀ (k : Nat) (i : LIns), l[k]? = some i → ∃ j : LIns, l'[k]? = some j ∧ kconfigOne spec fd i = .ok j := by
  induction l with
  | nil => intro l' h; simp [kconfigLoop] at h; subst h; exact ⟨rfl, by intro k i hi; simp at hi⟩
  | cons i r ih =>
    intro l' h
    unfold kconfigLoop at h
    cases h1 : kconfigOne spec fd i with
    | error e => rw [h1] at h; cases h
    | ok j =>
      rw [h1] at h
      simp only at h
      cases h2 : kconfigLoop spec fd r with
      | error e => rw [h2] at h; cases h
      | ok r' =>
        rw [h2] at h
        simp only [Except.ok.injEq] at h
        subst h
        obtain ⟨g1, g2⟩ := ih r' h2
        refine ⟨by simp [g1], ?_⟩
        intro k i' hi'
        cases k with
        | zero => simp only [List.getElem?_cons_zero, Option.some.injEq] at hi'; subst hi'; exact ⟨j, rfl, h1⟩
        | succ k => simp only [List.getElem?_cons_succ] at hi' ⊢; exact g2 k i' hi'

/-- What the instruction encoder makes of the constant for a map with descriptor `fd` (see C06). -/
theorem encode_offset (off fd : BitVec 32) :
    (encodeMapFD (off.setWidth 64 <<< 32) fd).setWidth 32 = fd ∧ mapOffset (encodeMapFD (off.setWidth 64 <<< 32) fd) = off := by
  unfold encodeMapFD mapOffset
  constructor
  · apply BitVec.eq_of_getLsbD_eq
    intro k hk
    simp only [BitVec.getLsbD_setWidth, BitVec.getLsbD_or, BitVec.getLsbD_and, BitVec.getLsbD_shiftLeft]
    have : k < 64 := by omega
    simp [hk, this]
  · apply BitVec.eq_of_getLsbD_eq
    intro k hk
    simp only [BitVec.getLsbD_setWidth, BitVec.getLsbD_ushiftRight, BitVec.getLsbD_or, BitVec.getLsbD_and, BitVec.getLsbD_shiftLeft]
    have h1 : 32 + k < 64 := by omega
    have h2 : fd.getLsbD (32 + k) = false := BitVec.getLsbD_of_ge _ _ (by omega)
    have h3 : (0xffffffff#64).getLsbD k = true := by
      have : k = 0 ∨ k = 1 ∨ k = 2 ∨ k = 3 ∨ k = 4 ∨ k = 5 ∨ k = 6 ∨ k = 7 ∨ k = 8 ∨ k = 9 ∨ k = 10 ∨ k = 11 ∨ k = 12 ∨ k = 13 ∨
        k = 14 ∨ k = 15 ∨ k = 16 ∨ k = 17 ∨ k = 18 ∨ k = 19 ∨ k = 20 ∨ k = 21 ∨ k = 22 ∨ k = 23 ∨ k = 24 ∨ k = 25 ∨ k = 26 ∨ k = 27 ∨
        k = 28 ∨ k = 29 ∨ k = 30 ∨ k = 31 := by omega
      rcases this with rfl | rfl | rfl | rfl | rfl | rfl | rfl | rfl | rfl | rfl | rfl | rfl | rfl | rfl | rfl | rfl | rfl | rfl | rfl | rfl |
        rfl | rfl | rfl | rfl | rfl | rfl | rfl | rfl | rfl | rfl | rfl | rfl <;> decide
    have h4 : ¬ 32 + k < 32 := by omega
    have h5 : k < 64 := by omega
    simp [hk, h1, h2, h3, h4, h5]

/-- **C63.** Resolving `.kconfig` references: without references nothing happens and no map is
created. Otherwise, on success exactly one map was created, it stays open, all references were to the
same `.kconfig` section, and each of them now loads from that map at the offset of its variable (the
encoder puts the descriptor in the low half and leaves the offset in the high half); no reference
remains, nothing else in these instructions changes and other instructions are untouched. On failure the map is closed again. -/
theorem kconfig_refs (create : Nat → Option Int) (l : List LIns) :
    ((∀ i ∈ l, i.kconfig = none) → resolveKconfig create l = (.ok (none, l), ([], []))) ∧
    (∀ e made closed, resolveKconfig create l = (.error e, (made, closed)) → closed = made) ∧
    (∀ r l' made closed, resolveKconfig create l = (.ok (r, l'), (made, closed)) →
      made = r.toList ∧ closed = [] ∧ l'.length = l.length ∧
      ((∃ i ∈ l, i.kconfig ≠ none) → ∃ (spec : Nat) (fd : Int), r = some fd ∧ create spec = some fd ∧ ∀ i ∈ l, ∀ m, i.kconfig = some m → m.map = spec) ∧
      ∀ (k : Nat) (i : LIns), l[k]? = some i → ∃ j : LIns, l'[k]? = some j ∧ j.kconfig = none ∧
        (i.kconfig = none → j = i) ∧
        (∀ m, i.kconfig = some m → ∃ fd : Int, r = some fd ∧ i.p.ins.isLoadFromMap = true ∧ j.p.map = some fd ∧
          (∃ c, j = { i with kconfig := none, p := { i.p with ref := "", map := some fd, ins := { i.p.ins with cons := c } } }) ∧
          (∀ d : BitVec 32, (encodeMapFD j.p.ins.cons d).setWidth 32 = d ∧ mapOffset (encodeMapFD j.p.ins.cons d) = m.offset))) := by
  unfold resolveKconfig
  cases hf : firstKconfig l with
  | none =>
    have hno : ∀ i ∈ l, i.kconfig = none := by
      unfold firstKconfig at hf
      rw [List.findSome?_eq_none_iff] at hf
      intro i hi; simpa using hf i hi
    refine ⟨fun _ => rfl, by intro e made closed h; simp at h, ?_⟩
    intro r l' made closed h
    simp only [Prod.mk.injEq, Except.ok.injEq] at h
    obtain ⟨⟨rfl, rfl⟩, rfl, rfl⟩ := h
    refine ⟨rfl, rfl, rfl, ?_, ?_⟩
    · rintro ⟨i, hi, hk⟩; exact absurd (hno i hi) hk
    · intro k i hi
      have := hno i (List.mem_of_getElem? hi)
      exact ⟨i, hi, this, fun _ => rfl, by intro m hm; rw [this] at hm; cases hm⟩
  | some spec =>
    have hex : ∃ i ∈ l, i.kconfig ≠ none := by
      unfold firstKconfig at hf
      obtain ⟨i, hi, hk⟩ := List.exists_of_findSome?_eq_some hf
      refine ⟨i, hi, ?_⟩
      intro h0; rw [h0] at hk; cases hk
    refine ⟨?_, ?_, ?_⟩
    · intro hno; obtain ⟨i, hi, hk⟩ := hex; exact absurd (hno i hi) hk
    · intro e made closed h
      simp only at h
      cases hc : create spec with
      | none => rw [hc] at h; simp at h; rw [h.2.1, h.2.2]
      | some fd =>
        rw [hc] at h
        simp only at h
        cases hl : kconfigLoop spec fd l with
        | error e => rw [hl] at h; simp at h; rw [← h.2.1, ← h.2.2]
        | ok l' => rw [hl] at h; simp at h
    · intro r l' made closed h
      simp only at h
      cases hc : create spec with
      | none => rw [hc] at h; simp at h
      | some fd =>
        rw [hc] at h
        simp only at h
        cases hl : kconfigLoop spec fd l with
        | error e => rw [hl] at h; simp at h
        | ok l2 =>
          rw [hl] at h
          simp only [Prod.mk.injEq, Except.ok.injEq] at h
          obtain ⟨⟨rfl, rfl⟩, rfl, rfl⟩ := h
          obtain ⟨g1, g2⟩ := kconfigLoop_ok spec fd l _ hl
          refine ⟨rfl, rfl, g1, ?_, ?_⟩
          · intro _
            refine ⟨spec, fd, rfl, hc, ?_⟩
            intro i hi m hm
            obtain ⟨k, hk, hke⟩ := List.getElem_of_mem hi
            obtain ⟨j, _, hj⟩ := g2 k i (by rw [List.getElem?_eq_getElem hk, hke])
            unfold kconfigOne at hj
            rw [hm] at hj
            simp only at hj
            by_cases hs : m.map = spec
            · exact hs
            · rw [if_pos hs] at hj; cases hj
          · intro k i hi
            obtain ⟨j, hj, hone⟩ := g2 k i hi
            refine ⟨j, hj, ?_⟩
            unfold kconfigOne at hone
            cases hk : i.kconfig with
            | none =>
              rw [hk] at hone
              simp only [Except.ok.injEq] at hone
              subst hone
              exact ⟨hk, fun _ => rfl, by intro m hm; cases hm⟩
            | some m =>
              rw [hk] at hone
              simp only at hone
              by_cases hs : m.map = spec
              · rw [if_neg (by simp [hs])] at hone
                by_cases hld : i.p.ins.isLoadFromMap = true
                · rw [if_neg (by simp [hld])] at hone
                  simp only [Except.ok.injEq] at hone
                  subst hone
                  refine ⟨rfl, (by intro h; cases h), ?_⟩
                  intro m' hm'
                  injection hm' with hm'; subst hm'
                  exact ⟨fd, rfl, hld, rfl, ⟨_, rfl⟩, fun d => encode_offset m.offset d⟩
                · rw [if_pos (by simp [hld])] at hone; cases hone
              · rw [if_pos hs] at hone; cases hone

/-- Two references to one map; a third to another map is refused and the map closed. -/
def kref (m : Nat) (off : BitVec 32) : LIns :=
  { p := { ins := ⟨0x18#32, 1#8, 2#8, 0#16, 0#64⟩ }, kconfig := some ⟨m, off⟩ }
example : (resolveKconfig (fun _ => some 7) [kref 3 8#32, kcall, kref 3 12#32]).2 = ([7], []) := by decide
example : resolveKconfig (fun _ => some 7) [kref 3 8#32, kref 4 12#32] = (.error .multipleKconfig, ([7], [7])) := by decide

/-! ## C64: validation and fallbacks -/

/-- Specification: the older helper with the same arguments. 112 `bpf_probe_read_user`,
113 `bpf_probe_read_kernel` → 4 `bpf_probe_read`; 114, 115, the `_str` variants →
45 `bpf_probe_read_str`. -/
def olderHelper : Nat → Option Nat
  | 112 => some 4
  | 113 => some 4
  | 114 => some 45
  | 115 => some 45
  | _ => none

theorem fixupProbeRead_spec (have' : Bool) (i : Ins) :
    ((have' = true ∨ i.isBuiltinCall = false ∨ olderHelper (i.cons.toNat % 2 ^ 32) = none) → fixupProbeRead have' i = i) ∧
    (have' = false → i.isBuiltinCall = true → ∀ h, olderHelper (i.cons.toNat % 2 ^ 32) = some h →
      fixupProbeRead have' i = { i with cons := BitVec.ofNat 64 h }) := by
  have eq : ∀ c : Nat, c < 2 ^ 32 → (i.cons.setWidth 32 = BitVec.ofNat 32 c ↔ i.cons.toNat % 2 ^ 32 = c) := by
    intro c hc
    rw [← BitVec.toNat_inj, BitVec.toNat_setWidth, BitVec.toNat_ofNat, Nat.mod_eq_of_lt hc]
  have e112 := eq 112 (by decide)
  have e113 := eq 113 (by decide)
  have e114 := eq 114 (by decide)
  have e115 := eq 115 (by decide)
  unfold fixupProbeRead
  constructor
  · rintro (h | h | h)
    · cases i.isBuiltinCall <;> simp [h]
    · simp [h]
    · have n1 : i.cons.toNat % 2 ^ 32 ≠ 112 := by intro hc; rw [hc] at h; cases h
      have n2 : i.cons.toNat % 2 ^ 32 ≠ 113 := by intro hc; rw [hc] at h; cases h
      have n3 : i.cons.toNat % 2 ^ 32 ≠ 114 := by intro hc; rw [hc] at h; cases h
      have n4 : i.cons.toNat % 2 ^ 32 ≠ 115 := by intro hc; rw [hc] at h; cases h
      have c1 : ¬ (i.cons.setWidth 32 = 113#32 ∨ i.cons.setWidth 32 = 112#32) := by
        intro h; rcases h with h | h
        · exact n2 (e113.1 h)
        · exact n1 (e112.1 h)
      have c2 : ¬ (i.cons.setWidth 32 = 115#32 ∨ i.cons.setWidth 32 = 114#32) := by
        intro h; rcases h with h | h
        · exact n4 (e115.1 h)
        · exact n3 (e114.1 h)
      rw [if_neg c1, if_neg c2]
      simp
  · intro h1 h2 h hh
    rw [if_neg (by simp [h2]), if_neg (by simp [h1])]
    unfold olderHelper at hh
    split at hh
    · rename_i hc; injection hh with hh; subst hh
      rw [if_pos (Or.inr (e112.2 hc))]
    · rename_i hc; injection hh with hh; subst hh
      rw [if_pos (Or.inl (e113.2 hc))]
    · rename_i hc; injection hh with hh; subst hh
      rw [if_neg (by rw [e113, e112]; omega), if_pos (Or.inr (e114.2 hc))]
    · rename_i hc; injection hh with hh; subst hh
      rw [if_neg (by rw [e113, e112]; omega), if_pos (Or.inl (e115.2 hc))]
    · cases hh

/-- **C64.** Validation right before loading: it fails exactly if some load from a map was tagged with
a map (by name or as a `.kconfig` variable) and has not been given one, so that no program goes to the
kernel with a descriptor left over from the object file. On success the instructions are the same,
except that on kernels without the newer probe-read helpers, and only there, exactly the calls of these
helpers are redirected to the older helper of the same kind. -/
theorem validate_exact (haveProbe : Bool) (l : List LIns) :
    ((∃ e, fixupAndValidate haveProbe l = .error e) ↔
      ∃ i ∈ l, i.p.ins.isLoadFromMap = true ∧ (i.p.ref ≠ "" ∨ i.kconfig ≠ none) ∧ i.p.map = none) ∧
    ∀ l', fixupAndValidate haveProbe l = .ok l' → l'.length = l.length ∧
      ∀ (k : Nat) (i : LIns), l[k]? = some i → ∃ j : LIns, l'[k]? = some j ∧
        ((haveProbe = true ∨ i.p.ins.isBuiltinCall = false ∨ olderHelper (i.p.ins.cons.toNat % 2 ^ 32) = none) → j = i) ∧
        (haveProbe = false → i.p.ins.isBuiltinCall = true → ∀ h, olderHelper (i.p.ins.cons.toNat % 2 ^ 32) = some h →
          j = i.setCons (BitVec.ofNat 64 h)) := by
  induction l with
  | nil =>
    refine ⟨⟨(by rintro ⟨e, h⟩; cases h), (by rintro ⟨i, hi, _⟩; cases hi)⟩, ?_⟩
    intro l' h
    simp [fixupAndValidate] at h; subst h
    exact ⟨rfl, by intro k i hi; simp at hi⟩
  | cons i r ih =>
    have hcond : (i.p.ins.isLoadFromMap && (i.p.ref != "" || i.kconfig.isSome) && i.p.map.isNone) = true ↔
        (i.p.ins.isLoadFromMap = true ∧ (i.p.ref ≠ "" ∨ i.kconfig ≠ none) ∧ i.p.map = none) := by
      simp only [Bool.and_eq_true, Bool.or_eq_true, bne_iff_ne, ne_eq, Option.isNone_iff_eq_none, and_assoc, Option.isSome_iff_ne_none]
    unfold fixupAndValidate
    by_cases hb : (i.p.ins.isLoadFromMap && (i.p.ref != "" || i.kconfig.isSome) && i.p.map.isNone) = true
    · rw [if_pos hb]
      refine ⟨⟨fun _ => ⟨i, List.mem_cons_self, hcond.1 hb⟩, fun _ => ⟨_, rfl⟩⟩, by intro l' h; cases h⟩
    · rw [if_neg hb]
      obtain ⟨ih1, ih2⟩ := ih
      have hmem : (∃ x ∈ i :: r, x.p.ins.isLoadFromMap = true ∧ (x.p.ref ≠ "" ∨ x.kconfig ≠ none) ∧ x.p.map = none) ↔
          ∃ x ∈ r, x.p.ins.isLoadFromMap = true ∧ (x.p.ref ≠ "" ∨ x.kconfig ≠ none) ∧ x.p.map = none := by
        constructor
        · rintro ⟨x, hx, h⟩
          rcases List.mem_cons.1 hx with rfl | hx
          · exact absurd (hcond.2 h) hb
          · exact ⟨x, hx, h⟩
        · rintro ⟨x, hx, h⟩; exact ⟨x, List.mem_cons_of_mem _ hx, h⟩
      rw [hmem, ← ih1]
      cases hr : fixupAndValidate haveProbe r with
      | error e => exact ⟨⟨fun _ => ⟨e, rfl⟩, fun _ => ⟨e, rfl⟩⟩, by intro l' h; cases h⟩
      | ok r' =>
        refine ⟨⟨(by rintro ⟨e, h⟩; cases h), (by rintro ⟨e, h⟩; cases h)⟩, ?_⟩
        intro l' h
        simp only [Except.ok.injEq] at h
        subst h
        obtain ⟨g1, g2⟩ := ih2 r' hr
        refine ⟨by simp [g1], ?_⟩
        intro k i' hi'
        cases k with
        | zero =>
          simp only [List.getElem?_cons_zero, Option.some.injEq] at hi'
          subst hi'
          obtain ⟨f1, f2⟩ := fixupProbeRead_spec haveProbe i.p.ins
          refine ⟨_, rfl, ?_, ?_⟩
          · intro h; rw [f1 h]
          · intro h1 h2 h hh; rw [f2 h1 h2 h hh]; rfl
        | succ k => simp only [List.getElem?_cons_succ] at hi' ⊢; exact g2 k i' hi'

/-- Two helper calls on an old kernel, one of them rewritten; a tagged map load without a map. -/
def helper (n : BitVec 64) : LIns := { p := { ins := ⟨0x85#32, 0#8, 0#8, 0#16, n⟩ } }
example : fixupAndValidate false [helper 113#64, helper 1#64, helper 114#64] = .ok [helper 4#64, helper 1#64, helper 45#64] := by decide
example : fixupAndValidate true [helper 113#64] = .ok [helper 113#64] := by decide
example : fixupAndValidate true [helper 1#64, { p := { ins := ⟨0x18#32, 1#8, 1#8, 0#16, 0#64⟩, ref := "m" } }] = .error .unsatisfiedMap := by decide

end Ebpf.LinkerFix
