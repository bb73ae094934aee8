import Verif.Props.ElfLoad
import Verif.Spec.Linker
/-!
# C66: relocations of an object
-/
namespace Ebpf.Elf
open Ebpf.Asm Ebpf.Asm.OpCode Ebpf.LinkerFix Ebpf.Elf.Spec Ebpf.Linker.Spec

/-! ## decoding -/

theorem unmarshalClass_cons (plat : String) (i j : Ins) (h : unmarshalClass plat i = .ok j) (hs : j.src ≠ 0#8) :
    j.cons = i.cons := by
  unfold unmarshalClass at h
  by_cases hb : i.isBuiltinCall = true
  · rw [if_pos hb] at h
    exfalso
    unfold Ins.isBuiltinCall at hb
    simp only [Bool.and_eq_true, beq_iff_eq] at hb
    by_cases hc : 0 ≤ i.cons.toInt
    · rw [if_pos hc] at h
      cases hp : Platform.encodeConstant plat (i.cons.setWidth 32) with
      | none => rw [hp] at h; cases h
      | some fn =>
        rw [hp] at h
        simp only [Except.ok.injEq] at h
        subst h
        exact hs hb.1.2
    · rw [if_neg hc] at h
      simp only [Except.ok.injEq] at h
      subst h
      exact hs hb.1.2
  · rw [if_neg hb] at h
    by_cases ha : clsIsALU i.op.cls = true
    · rw [if_pos ha] at h
      simp only [Except.ok.injEq] at h
      subst h
      unfold unmarshalALU
      split <;> (try split) <;> (try split) <;> (try split) <;> (try split) <;> (try split) <;> rfl
    · rw [if_neg ha] at h
      split at h
      · simp only [Except.ok.injEq] at h
        subst h; rfl
      · simp only [Except.ok.injEq] at h
        subst h; rfl

theorem isDWordLoad_iff (op : OpCode) : op.isDWordLoad = true ↔ op = 0x18#32 := by
  unfold OpCode.isDWordLoad
  simp only [beq_iff_eq]

/-- The constant of a decoded call has 32 bits. -/
theorem unmarshal_call (bo : ByteOrder) (plat : String) (data rest : Bytes) (i : Ins) (h : unmarshal bo plat data = .ok (i, rest)) :
    data.length = 8 * i.width + rest.length ∧ (IsCall i → ∃ x : BitVec 32, i.cons = x.signExtend 64) := by
  unfold unmarshal at h
  split at h
  · rename_i b0 b1 b2 b3 b4 b5 b6 b7 r
    cases hc : unmarshalClass plat (decodeHeader bo b0 b1 b2 b3 b4 b5 b6 b7) with
    | error e => rw [hc] at h; cases h
    | ok j =>
      rw [hc] at h
      simp only at h
      by_cases hd : j.op.isDWordLoad = true
      · rw [if_neg (by simp [hd])] at h
        split at h
        · rename_i c0 c1 c2 c3 c4 c5 c6 c7 r'
          split at h
          · cases h
          · simp only [Except.ok.injEq, Prod.mk.injEq] at h
            obtain ⟨rfl, rfl⟩ := h
            have hop := (isDWordLoad_iff _).1 hd
            constructor
            · unfold Ins.width OpCode.rawInstructions
              simp only [hd, if_true, List.length_cons]
              omega
            · rintro ⟨h1, _⟩
              simp only [hop] at h1
              exact absurd h1 (by decide)
        · cases h
      · rw [if_pos (by simp [hd])] at h
        simp only [Except.ok.injEq, Prod.mk.injEq] at h
        obtain ⟨rfl, rfl⟩ := h
        constructor
        · unfold Ins.width OpCode.rawInstructions
          simp only [hd, Bool.false_eq_true, if_false, List.length_cons]
          omega
        · rintro ⟨_, h2⟩
          rw [unmarshalClass_cons plat _ _ hc (by rw [h2]; decide)]
          exact ⟨_, rfl⟩
  · cases h
  · cases h

theorem appendFuel_spec (bo : ByteOrder) (plat : String) : ∀ (n : Nat) (data : Bytes) (l : List Ins), appendInstructionsFuel bo plat n data = .ok l →
    8 * (l.map Ins.width).sum ≤ data.length ∧ ∀ i ∈ l, IsCall i → ∃ x : BitVec 32, i.cons = x.signExtend 64
  | 0, data, l, h => by
    simp only [appendInstructionsFuel, Except.ok.injEq] at h
    subst h
    exact ⟨by simp, by intro i h; cases h⟩
  | n + 1, data, l, h => by
    unfold appendInstructionsFuel at h
    split at h
    · simp only [Except.ok.injEq] at h
      subst h
      exact ⟨by simp, by intro i h; cases h⟩
    · cases h
    · rename_i i rest hu
      cases hr : appendInstructionsFuel bo plat n rest with
      | error e => rw [hr] at h; cases h
      | ok r =>
        rw [hr] at h
        simp only [Except.ok.injEq] at h
        subst h
        obtain ⟨h1, h2⟩ := appendFuel_spec bo plat n rest r hr
        obtain ⟨h3, h4⟩ := unmarshal_call bo plat data rest i hu
        constructor
        · simp only [List.map_cons, List.sum_cons]
          omega
        · intro j hj
          rcases List.mem_cons.1 hj with hj | hj
          · subst hj; exact h4
          · exact h2 j hj

theorem sum_take_le (l : List Nat) (n : Nat) : (l.take n).sum ≤ l.sum := by
  have h : l.sum = (l.take n).sum + (l.drop n).sum := by
    conv => lhs; rw [← List.take_append_drop n l]
    rw [List.sum_append]
  omega

theorem offsetOf_le (l : List Ins) (n : Nat) : offsetOf l n ≤ 8 * (l.map Ins.width).sum := by
  unfold offsetOf
  rw [List.map_take]
  have := sum_take_le (l.map Ins.width) n
  omega

/-! ## what a loaded function is made of -/

/-- Relocation does not touch operation, destination, offset and symbol. -/
theorem resolveOne_keeps (ec : Code) (sec : Sec) (off : BitVec 64) (i j : LIns) (h : resolveOne ec sec off i = .ok j) :
    j.p.ins.op = i.p.ins.op ∧ j.p.ins.dst = i.p.ins.dst ∧ j.p.ins.off = i.p.ins.off ∧ j.p.sym = i.p.sym := by
  unfold resolveOne at h
  split at h
  · rename_i rel _
    unfold relocateInstruction at h
    split at h
    · cases h
    · rename_i target _
      have hmap : ∀ {j}, relocMap i rel = .ok j → j.p.ins.op = i.p.ins.op ∧ j.p.ins.dst = i.p.ins.dst ∧ j.p.ins.off = i.p.ins.off ∧ j.p.sym = i.p.sym := by
        intro j h
        unfold relocMap withRef mapIns at h
        split at h
        · cases h
        · split at h
          · cases h
          · cases h; exact ⟨rfl, rfl, rfl, rfl⟩
      split at h
      · exact hmap h
      · exact hmap h
      · unfold relocData withRef mapIns at h
        split at h
        · cases h
        · cases h; exact ⟨rfl, rfl, rfl, rfl⟩
      · unfold relocProg at h
        split at h
        · unfold relocCall withRef mapIns at h
          repeat' split at h
          all_goals first | (cases h; done) | (cases h; exact ⟨rfl, rfl, rfl, rfl⟩)
        · split at h
          · unfold relocFuncPtr withRef mapIns at h
            simp only at h
            split at h
            · cases h
            · split at h
              · cases h
              · cases h; exact ⟨rfl, rfl, rfl, rfl⟩
          · cases h
      · unfold relocUndef withRef mapIns at h
        simp only at h
        repeat' split at h
        all_goals first | (cases h; done) | (cases h; exact ⟨rfl, rfl, rfl, rfl⟩)
      · cases h
  · unfold referenceRelativeJump withRef mapIns at h
    simp only at h
    repeat' split at h
    all_goals first | (cases h; done) | (cases h; exact ⟨rfl, rfl, rfl, rfl⟩)

/-- The instruction a function starts from. -/
def freshIns (name : String) (n : Nat) (i : Ins) : LIns := { p := { ins := i, sym := if n = 0 then name else "" } }

/-- One function. -/
theorem loadFunction_spec (ec : Code) (bo : ByteOrder) (sec : Sec) (s : Sym) (f : List LIns) (h : loadFunction ec bo sec s = .ok f) :
    s.value.toNat < 2 ^ 32 ∧ s.size.toNat < 2 ^ 32 ∧ s.value.toNat + s.size.toNat ≤ sec.data.length ∧
    ∃ raw, appendInstructions bo "linux" ((sec.data.drop s.value.toNat).take s.size.toNat) = .ok raw ∧ raw ≠ [] ∧ MadeOf s.name raw f ∧
      ∀ (n : Nat) (i : Ins), raw[n]? = some i → ∃ j : LIns, f[n]? = some j ∧
        resolveOne ec sec (s.value + BitVec.ofNat 64 (offsetOf raw n)) (freshIns s.name n i) = .ok j := by
  unfold loadFunction at h
  by_cases h1 : s.value > 0xffffffff#64 ∨ s.size > 0xffffffff#64
  · rw [if_pos h1] at h; cases h
  · rw [if_neg h1] at h
    by_cases h2 : s.value.toNat + s.size.toNat > sec.data.length
    · rw [if_pos h2] at h; cases h
    · rw [if_neg h2] at h
      have hv : ¬ s.value > 0xffffffff#64 := fun hh => h1 (Or.inl hh)
      have hz : ¬ s.size > 0xffffffff#64 := fun hh => h1 (Or.inr hh)
      have hv' : s.value.toNat < 2 ^ 32 := by
        have : ¬ (0xffffffff#64).toNat < s.value.toNat := hv
        have e : (0xffffffff#64).toNat = 4294967295 := by decide
        omega
      have hz' : s.size.toNat < 2 ^ 32 := by
        have : ¬ (0xffffffff#64).toNat < s.size.toNat := hz
        have e : (0xffffffff#64).toNat = 4294967295 := by decide
        omega
      refine ⟨hv', hz', by omega, ?_⟩
      cases ha : appendInstructions bo "linux" ((sec.data.drop s.value.toNat).take s.size.toNat) with
      | error e => rw [ha] at h; cases h
      | ok raw =>
        rw [ha] at h
        cases raw with
        | nil => cases h
        | cons i r =>
          simp only at h
          obtain ⟨a, b⟩ := resolveAll_spec ec sec _ _ f h
          have hfr : ∀ (n : Nat) (i' : Ins), (i :: r)[n]? = some i' →
              (({ p := { ins := i, sym := s.name } } : LIns) :: r.map fun j => ({ p := { ins := j } } : LIns))[n]? = some (freshIns s.name n i') := by
            intro n i' hi
            cases n with
            | zero =>
              simp only [List.getElem?_cons_zero, Option.some.injEq] at hi
              subst hi; rfl
            | succ n =>
              simp only [List.getElem?_cons_succ] at hi
              simp [List.getElem?_map, hi, freshIns]
          have hmp : ((({ p := { ins := i, sym := s.name } } : LIns) :: r.map fun j => ({ p := { ins := j } } : LIns)).map (·.p.ins)) = i :: r := by
            simp only [List.map_cons, List.map_map, List.cons.injEq, true_and]
            have : ((fun x : LIns => x.p.ins) ∘ fun j => ({ p := { ins := j } } : LIns)) = id := rfl
            rw [this, List.map_id]
          have hel : ∀ (n : Nat) (i' : Ins), (i :: r)[n]? = some i' → ∃ j : LIns, f[n]? = some j ∧
              resolveOne ec sec (s.value + BitVec.ofNat 64 (offsetOf (i :: r) n)) (freshIns s.name n i') = .ok j := by
            intro n i' hi
            obtain ⟨j, hj, hh⟩ := b n _ (hfr n i' hi)
            rw [hmp] at hh
            exact ⟨j, hj, hh⟩
          refine ⟨i :: r, rfl, by simp, ⟨by simpa using a, ?_⟩, hel⟩
          intro n i' hi
          obtain ⟨j, hj, hh⟩ := hel n i' hi
          obtain ⟨k1, k2, k3, k4⟩ := resolveOne_keeps _ _ _ _ _ hh
          exact ⟨j, hj, k1, k2, k3, k4⟩

/-! ## functions of the object -/

theorem keep_function (s : Sym) (hn : s.name ≠ "") : keepSymbol .program s = true ↔ IsFunction s := by
  unfold keepSymbol IsFunction
  simp only [hn, ne_eq, not_false_eq_true, true_and]
  cases s.typ <;> simp

/-- Symbols of the other sections: in sections of maps and data, those without type and those of objects; everywhere else none. -/
theorem keep_object (k : Kind) (s : Sym) (hk : k ≠ .program) :
    keepSymbol k s = true ↔ (k = .maps ∨ k = .btfMaps ∨ k = .data) ∧ (s.typ = .notype ∨ s.typ = .object) := by
  cases k <;> simp_all [keepSymbol]

/-- Facts about a loaded object. -/
structure ObjectFacts (o : Object) (bo : ByteOrder) (progs : List (String × Bool × List LIns)) (l : List (Nat × Sec)) : Prop where
  read : readSecs o o.secs = .ok l
  names : (progs.map (·.1)).Nodup
  has : ∀ k sec, (k, sec) ∈ l → sec.kind = .program → ∀ off s, sec.symbols.lookup off = some s →
    ∃ f, loadFunction (codeOf o l) bo sec s = .ok f ∧ (s.name, decide (sec.name ≠ ".text"), f) ∈ progs
  only : ∀ n y f, (n, y, f) ∈ progs → ∃ k sec off s, (k, sec) ∈ l ∧ sec.kind = .program ∧ sec.symbols.lookup off = some s ∧ s.name = n ∧
    y = decide (sec.name ≠ ".text") ∧ loadFunction (codeOf o l) bo sec s = .ok f

theorem loadObject_facts {o : Object} {bo : ByteOrder} {progs : List (String × Bool × List LIns)} (h : loadObject o bo = .ok progs) :
    ∃ l, ObjectFacts o bo progs l := by
  unfold loadObject at h
  cases hr : readSecs o o.secs with
  | error e => rw [hr] at h; cases h
  | ok l =>
    rw [hr] at h
    simp only at h
    obtain ⟨h1, h2, _, h4⟩ := loadSections_spec _ bo _ _ _ h (by simp)
    refine ⟨l, hr, h1, ?_, ?_⟩
    · intro k sec hm hk off s hs
      exact h2 sec (List.mem_map.2 ⟨_, hm, rfl⟩) hk off s hs
    · intro n y f hm
      rcases h4 n y f hm with h' | ⟨sec, hs, off, s, a, b, c, d, e⟩
      · cases h'
      · obtain ⟨⟨k, sec'⟩, hk, rfl⟩ := List.mem_map.1 hs
        exact ⟨k, sec', off, s, hk, a, c, d, b, e⟩

/-- A section that was read. -/
theorem section_of {o : Object} {l : List (Nat × Sec)} (hr : readSecs o o.secs = .ok l) (wf : WellFormed o) {k : Nat} {raw : RawSec}
    (hk : (k, raw) ∈ o.secs) : ∃ sec, readSec o k raw = .ok sec ∧ (k, sec) ∈ l ∧ l.lookup k = some sec := by
  obtain ⟨h1, h2, _⟩ := readSecs_spec o _ _ hr
  obtain ⟨sec, hs, hm⟩ := h2 k raw hk
  exact ⟨sec, hs, hm, lookup_nodup (by rw [h1]; exact wf.secs) hm⟩

theorem raw_of {o : Object} {l : List (Nat × Sec)} (hr : readSecs o o.secs = .ok l) {k : Nat} {sec : Sec} (hk : (k, sec) ∈ l) :
    ∃ raw, (k, raw) ∈ o.secs ∧ readSec o k raw = .ok sec := (readSecs_spec o _ _ hr).2.2 k sec hk

theorem unique_raw {o : Object} (wf : WellFormed o) {k : Nat} {a b : RawSec} (ha : (k, a) ∈ o.secs) (hb : (k, b) ∈ o.secs) : a = b := by
  have h1 := lookup_nodup wf.secs ha
  have h2 := lookup_nodup wf.secs hb
  rw [h1] at h2
  exact Option.some.inj h2

/-- The symbol found at an offset of a program section is a function that was loaded. -/
theorem symbol_loaded {o : Object} {bo : ByteOrder} {progs : List (String × Bool × List LIns)} {l : List (Nat × Sec)} (F : ObjectFacts o bo progs l)
    {k : Nat} {sec : Sec} (hk : (k, sec) ∈ l) (hp : sec.kind = .program) {off : BitVec 64} {t : Sym} (ht : sec.symbols.lookup off = some t) :
    t ∈ o.syms ∧ t.sec = k ∧ t.value = off ∧ IsFunction t ∧ t.value.toNat < 2 ^ 32 ∧ t.size.toNat < 2 ^ 32 ∧
      ∃ f raw, progs.lookup t.name = some (decide (sec.name ≠ ".text"), f) ∧ CodeAt o bo ⟨k, t.value.toNat⟩ t.name raw ∧ MadeOf t.name raw f := by
  obtain ⟨raw, hraw, hread⟩ := raw_of F.read hk
  obtain ⟨s1, s2, s3, s4, s5, _⟩ := readSec_spec hread
  have hk' : raw.kind = .program := by rw [← s1]; exact hp
  have hsym := ht
  rw [s4, hk'] at hsym
  rcases assignSymbols_sound _ _ _ _ _ _ hsym with ⟨a, b, c, d, e⟩ | h'
  · obtain ⟨f, hf, hm⟩ := F.has k sec hk hp off t ht
    have hfun := (keep_function t c).1 d
    obtain ⟨v1, v2, v3, ins, v4, v5, v6, v7⟩ := loadFunction_spec _ _ _ _ _ hf
    refine ⟨a, b, e, hfun, v1, v2, f, ins, lookup_nodup F.names hm, ?_, v6⟩
    refine ⟨raw, t, hraw, hk', a, b, rfl, rfl, ?_, by rw [← s3]; exact v3, by rw [← s3]; exact v4, v5⟩
    rcases hfun.2 with h' | h'
    · exact Or.inl h'
    · exact Or.inr h'.1
  · cases h'

/-- A relocation record is found. -/
theorem relocation_found {o : Object} (wf : WellFormed o) {k : Nat} {raw : RawSec} {sec : Sec} (hk : (k, raw) ∈ o.secs)
    (hread : readSec o k raw = .ok sec) {off : Nat} {r : Sym} (h : Relocation o k off r) : sec.relocs.lookup (BitVec.ofNat 64 off) = some r := by
  obtain ⟨raw', n, hk', hm, hn, hs⟩ := h
  have := unique_raw wf hk hk'
  subst this
  obtain ⟨_, _, _, _, s5, _⟩ := readSec_spec hread
  obtain ⟨l1, l2⟩ := loadRelocs_spec _ _ _ _ s5
  cases hl : sec.relocs.lookup (BitVec.ofNat 64 off) with
  | none => exact absurd hm ((l2 _ hl).1 n)
  | some t =>
    rcases l1 _ _ hl with ⟨n', hn', ht⟩ | ⟨hh, _⟩
    · have e : n' = n := by
        have a := lookup_nodup (wf.relocs k raw hk) hn'
        have b := lookup_nodup (wf.relocs k raw hk) hm
        rw [a] at b
        exact Option.some.inj b
      subst e
      have hpos : 1 ≤ n'.toNat := by
        rcases Nat.eq_zero_or_pos n'.toNat with h0 | h0
        · exact absurd (BitVec.eq_of_toNat_eq (by rw [h0]; rfl)) hn
        · exact h0
      have : (n' - 1).toNat = n'.toNat - 1 := by
        rw [BitVec.toNat_sub_of_le]
        · rfl
        · exact hpos
      rw [this, hs] at ht
      exact ht.symm
    · exact absurd hm (hh n)

theorem norelocation_found {o : Object} {k : Nat} {raw : RawSec} {sec : Sec} (hk : (k, raw) ∈ o.secs)
    (hread : readSec o k raw = .ok sec) {off : Nat} (h : NoRelocation o k off) : sec.relocs.lookup (BitVec.ofNat 64 off) = none := by
  obtain ⟨_, _, _, _, s5, _⟩ := readSec_spec hread
  obtain ⟨l1, l2⟩ := loadRelocs_spec _ _ _ _ s5
  cases hl : sec.relocs.lookup (BitVec.ofNat 64 off) with
  | none => rfl
  | some t =>
    rcases l1 _ _ hl with ⟨n', hn', ht⟩ | ⟨_, hh⟩
    · exact absurd hn' (h raw hk n')
    · cases hh

end Ebpf.Elf
