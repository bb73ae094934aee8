import Verif.Model.Program
import Verif.Props.InstructionEnc
/-!
# C04, C06, C07, C08: programs
-/
set_option linter.unusedSimpArgs false
namespace Ebpf.Asm
open OpCode

/-! ## C04 instruction streams -/

theorem unmarshal_consumes (bo plat data i rest) (h : unmarshal bo plat data = .ok (i, rest)) :
    rest.length + 8 ≤ data.length := by
  unfold unmarshal at h
  split at h
  · split at h
    · cases h
    · split at h
      · simp only [Except.ok.injEq, Prod.mk.injEq] at h
        rw [← h.2]; simp
      · split at h
        · split at h
          · cases h
          · simp only [Except.ok.injEq, Prod.mk.injEq] at h
            rw [← h.2]; simp
        · cases h
  · cases h
  · cases h

/-- More fuel than needed does not change the result of the decoding loop. -/
theorem fuel_enough (bo plat) : ∀ (n m : Nat) (data : Bytes), data.length < n → data.length < m →
    appendInstructionsFuel bo plat n data = appendInstructionsFuel bo plat m data := by
  intro n
  induction n with
  | zero => intro m data h; omega
  | succ n ih =>
    intro m data h1 h2
    cases m with
    | zero => omega
    | succ m =>
      unfold appendInstructionsFuel
      split
      · rfl
      · rfl
      · rename_i i rest hu
        have := unmarshal_consumes _ _ _ _ _ hu
        rw [ih m rest (by omega) (by omega)]

/-- C04: encoding a well-formed program of any length produces exactly the sum of the raw sizes of
its instructions, and decoding the stream yields the same instructions in the same order. -/
theorem stream_roundtrip (bo : ByteOrder) (plat : String) (t : Nat) (ht : tagNat plat = some t) (p : List Ins)
    (hw : ∀ i ∈ p, Spec.WellFormed t i.op i.dst i.src i.off i.cons) :
    ∃ w, marshalAll plat bo p = .ok w ∧ w.length = (p.map (fun i => 8 * i.width)).sum
      ∧ appendInstructions bo plat w = .ok p := by
  induction p with
  | nil =>
    refine ⟨[], rfl, rfl, ?_⟩
    rfl
  | cons i r ih =>
    obtain ⟨w', h1, h2, h3⟩ := ih (fun j hj => hw j (List.mem_cons_of_mem _ hj))
    obtain ⟨w, g1, g2, g3⟩ := encode_decode bo plat t ht i w' (hw i (List.mem_cons_self))
    refine ⟨w ++ w', ?_, ?_, ?_⟩
    · unfold marshalAll; rw [g1, h1]
    · simp [g2, h2]
    · unfold appendInstructions appendInstructionsFuel
      rw [g3]
      simp only
      have hlen : 8 ≤ w.length := by
        rw [g2]; unfold Ins.width rawInstructions; split <;> omega
      rw [fuel_enough bo plat (w ++ w').length (w'.length + 1) w' (by simp; omega) (by omega)]
      unfold appendInstructions at h3
      rw [h3]

/-- C04: a truncated stream is reported, never silently shortened: whatever `AppendInstructions`
accepts has a length that is a multiple of eight and accounts for every byte. -/
theorem append_consumes_all (bo : ByteOrder) (plat : String) : ∀ (n : Nat) (data : Bytes) (p : List Ins),
    data.length < n → appendInstructionsFuel bo plat n data = .ok p →
    data.length = (p.map (fun i => 8 * i.width)).sum := by
  intro n
  induction n with
  | zero => intro data p h; omega
  | succ n ih =>
    intro data p hlen h
    unfold appendInstructionsFuel at h
    split at h
    · rename_i hu
      simp only [Except.ok.injEq] at h
      subst h
      unfold unmarshal at hu
      split at hu
      · split at hu
        · rename_i e he
          simp only [Except.error.injEq] at hu
          subst hu
          exfalso
          unfold unmarshalClass at he
          split at he
          · split at he
            · split at he <;> cases he
            · cases he
          · split at he
            · cases he
            · split at he <;> cases he
        · split at hu
          · cases hu
          · split at hu
            · split at hu <;> cases hu
            · cases hu
      · rfl
      · cases hu
    · cases h
    · rename_i i rest hu
      split at h
      · cases h
      · rename_i r hr
        simp only [Except.ok.injEq] at h
        subst h
        have hc := unmarshal_consumes _ _ _ _ _ hu
        have := ih rest r (by omega) hr
        simp only [List.map_cons, List.sum_cons, ← this]
        -- one instruction consumes exactly its width
        unfold unmarshal at hu
        split at hu
        · split at hu
          · cases hu
          · split at hu
            · rename_i hd
              simp only [Except.ok.injEq, Prod.mk.injEq] at hu
              rw [← hu.2, ← hu.1]
              simp at hd
              simp [Ins.width, rawInstructions, hd]; omega
            · rename_i hd
              split at hu
              · split at hu
                · cases hu
                · simp only [Except.ok.injEq, Prod.mk.injEq] at hu
                  rw [← hu.2, ← hu.1]
                  simp at hd
                  simp [Ins.width, rawInstructions, hd]; omega
              · cases hu
        · cases hu
        · cases hu

example : ∃ w, marshalAll "linux" .big [⟨0x18#32, 1#8, 0#8, 0#16, 0x123456789a#64⟩, ⟨0x95#32, 0#8, 0#8, 0#16, 0#64⟩] = .ok w
    ∧ w.length = 24 := by
  refine ⟨_, rfl, rfl⟩

/-! ## C07 map references -/

theorem mapFd_encode (c : BitVec 64) (fd : BitVec 32) : mapFd (encodeMapFD c fd) = fd := by
  unfold mapFd encodeMapFD
  apply BitVec.eq_of_getLsbD_eq
  intro i hi
  have h64 : i < 64 := by omega
  simp only [BitVec.getLsbD_setWidth, BitVec.getLsbD_or, BitVec.getLsbD_and, BitVec.getLsbD_shiftLeft, hi, h64]
  simp

theorem mapOffset_encode (c : BitVec 64) (fd : BitVec 32) : mapOffset (encodeMapFD c fd) = mapOffset c := by
  unfold mapOffset encodeMapFD
  apply BitVec.eq_of_getLsbD_eq
  intro i hi
  have h64 : 32 + i < 64 := by omega
  have h1 : ¬ (32 + i < 32) := by omega
  have h2 : fd.getLsbD (32 + i) = false := BitVec.getLsbD_of_ge _ _ (by omega)
  have key : ∀ j : Fin 32, (0xffffffff#64).getLsbD (32 + j.1 - 32) = true := by decide
  have h3 := key ⟨i, hi⟩
  simp only at h3
  simp only [BitVec.getLsbD_setWidth, BitVec.getLsbD_or, BitVec.getLsbD_and, BitVec.getLsbD_shiftLeft,
    BitVec.getLsbD_ushiftRight, hi, h64, h1, h2, h3]
  simp

theorem mapOffset_rewrite (c : BitVec 64) (off : BitVec 32) : mapOffset (rewriteMapOffset c off) = off := by
  unfold mapOffset rewriteMapOffset
  apply BitVec.eq_of_getLsbD_eq
  intro i hi
  have h64 : 32 + i < 64 := by omega
  have h1 : ¬ (32 + i < 32) := by omega
  have h4 : 32 + i - 32 = i := by omega
  have h5 : i < 64 := by omega
  have key : ∀ j : Fin 32, (0xffffffff#64).getLsbD (32 + j.1) = false := by decide
  have h3 := key ⟨i, hi⟩
  simp only at h3
  simp only [BitVec.getLsbD_setWidth, BitVec.getLsbD_or, BitVec.getLsbD_and, BitVec.getLsbD_shiftLeft,
    BitVec.getLsbD_ushiftRight, hi, h64, h1, h3, h4, h5]
  simp

theorem mapFd_rewrite (c : BitVec 64) (off : BitVec 32) : mapFd (rewriteMapOffset c off) = mapFd c := by
  unfold mapFd rewriteMapOffset
  apply BitVec.eq_of_getLsbD_eq
  intro i hi
  have h64 : i < 64 := by omega
  have key : ∀ j : Fin 32, (0xffffffff#64).getLsbD (j.1) = true := by decide
  have h3 := key ⟨i, hi⟩
  simp only at h3
  simp only [BitVec.getLsbD_setWidth, BitVec.getLsbD_or, BitVec.getLsbD_and, BitVec.getLsbD_shiftLeft, hi, h64, h3]
  simp

/-- A write to a map reference: either half. -/
inductive MapWrite where
  | fd (v : BitVec 32)
  | offset (v : BitVec 32)

/-- Applying a write to the constant, as the code does. -/
def MapWrite.apply (c : BitVec 64) : MapWrite → BitVec 64
  | .fd v => encodeMapFD c v
  | .offset v => rewriteMapOffset c v

/-- Specification: two independent cells. -/
def MapWrite.spec (s : BitVec 32 × BitVec 32) : MapWrite → BitVec 32 × BitVec 32
  | .fd v => (v, s.2)
  | .offset v => (s.1, v)

/-- C07: after any sequence of writes, in any order, the fd and the offset read back as if they were
two independent cells. -/
theorem mapref_independent (ws : List MapWrite) (c : BitVec 64) :
    (mapFd (ws.foldl MapWrite.apply c), mapOffset (ws.foldl MapWrite.apply c))
      = ws.foldl MapWrite.spec (mapFd c, mapOffset c) := by
  induction ws generalizing c with
  | nil => rfl
  | cons w ws ih =>
    simp only [List.foldl_cons]
    rw [ih]
    congr 1
    cases w with
    | fd v => simp [MapWrite.apply, MapWrite.spec, mapFd_encode, mapOffset_encode]
    | offset v => simp [MapWrite.apply, MapWrite.spec, mapFd_rewrite, mapOffset_rewrite]

/-- C07: `RewriteMapOffset` succeeds exactly on direct map value loads and changes only the offset. -/
theorem rewriteMapOffset_spec (i : Ins) (off : BitVec 32) :
    (∀ j, rewriteMapOffset? i off = some j →
      i.op = 0x18#32 ∧ i.src = 2#8 ∧ j.op = i.op ∧ j.dst = i.dst ∧ j.src = i.src ∧ j.off = i.off
        ∧ mapFd j.cons = mapFd i.cons ∧ mapOffset j.cons = off)
    ∧ (rewriteMapOffset? i off = none ↔ ¬ (i.op = 0x18#32 ∧ i.src = 2#8)) := by
  unfold rewriteMapOffset? isDWordLoad Ins.PseudoMapValue
  by_cases h1 : i.op = 0x18#32
  · by_cases h2 : i.src = 2#8
    · simp [h1, h2, mapFd_rewrite, mapOffset_rewrite]
    · simp [h1, h2]
  · simp [h1]

/-- C07 on the wire: the two halves end up in the two immediates of the double-wide instruction. -/
theorem mapref_wire (c : BitVec 64) :
    c.setWidth 32 = mapFd c ∧ (c.sshiftRight 32).setWidth 32 = mapOffset c := by
  refine ⟨rfl, ?_⟩
  unfold mapOffset
  apply BitVec.eq_of_getLsbD_eq
  intro i hi
  have h1 : ¬ 64 ≤ i := by omega
  have h2 : 32 + i < 64 := by omega
  simp only [BitVec.getLsbD_setWidth, BitVec.getLsbD_sshiftRight, BitVec.getLsbD_ushiftRight, hi, h1, h2]
  simp

example : mapFd (encodeMapFD 0x0000000500000003#64 7#32) = 7#32
    ∧ mapOffset (encodeMapFD 0x0000000500000003#64 7#32) = 5#32 := by decide

/-! ## C08 tags -/

/-- Two programs are equal up to the constants of their map loads. -/
def EqualUpToMaps : List Ins → List Ins → Prop
  | [], [] => True
  | i :: p, j :: q =>
    (i = j ∨ ((i.op = 0x18#32 ∧ (i.src = 1#8 ∨ i.src = 2#8)) ∧ { i with cons := j.cons } = j)) ∧ EqualUpToMaps p q
  | _, _ => False

theorem isLoadFromMap_iff (i : Ins) : i.isLoadFromMap = true ↔ i.op = 0x18#32 ∧ (i.src = 1#8 ∨ i.src = 2#8) := by
  unfold Ins.isLoadFromMap Ins.PseudoMapFD Ins.PseudoMapValue
  simp

/-- C08: programs that differ only in the constants of map loads are hashed identically (for any
hash function: the hashed bytes are the same). -/
theorem tag_ignores_map_fds (native : String) (bo : ByteOrder) (p q : List Ins) (h : EqualUpToMaps p q) :
    hashInput native bo p = hashInput native bo q := by
  unfold hashInput
  congr 1
  induction p generalizing q with
  | nil => cases q <;> simp_all [EqualUpToMaps]
  | cons i p ih =>
    cases q with
    | nil => simp [EqualUpToMaps] at h
    | cons j q =>
      obtain ⟨h1, h2⟩ := h
      simp only [List.map_cons, List.cons.injEq]
      refine ⟨?_, ih q h2⟩
      rcases h1 with h1 | ⟨h1, h1'⟩
      · rw [h1]
      · have hi := (isLoadFromMap_iff i).2 h1
        have hj : j.isLoadFromMap = true := by
          rw [← h1']; exact (isLoadFromMap_iff _).2 h1
        rw [if_pos hi, if_pos hj, ← h1']

/-- C08: apart from map loads the hashed bytes are the encoding of the program, and a map load
contributes its encoding with a zero constant. -/
theorem tag_input_exact (native : String) (bo : ByteOrder) (p : List Ins) :
    hashInput native bo p = marshalAll native bo
      (p.map (fun i => if i.op = 0x18#32 ∧ (i.src = 1#8 ∨ i.src = 2#8) then { i with cons := 0#64 } else i)) := by
  unfold hashInput
  congr 1
  apply List.map_congr_left
  intro i _
  by_cases h : i.isLoadFromMap = true
  · rw [if_pos h, if_pos ((isLoadFromMap_iff i).1 h)]
  · rw [if_neg h, if_neg (fun hh => h ((isLoadFromMap_iff i).2 hh))]

/-- C08: the tag distinguishes programs with different encodings: equal hash input of two well-formed
programs means the programs are equal up to map constants. -/
theorem tag_input_injective (bo : ByteOrder) (plat : String) (t : Nat) (ht : tagNat plat = some t) (p q : List Ins)
    (hp : ∀ i ∈ p, Spec.WellFormed t i.op i.dst i.src i.off i.cons)
    (hq : ∀ i ∈ q, Spec.WellFormed t i.op i.dst i.src i.off i.cons)
    (h : hashInput plat bo p = hashInput plat bo q) : EqualUpToMaps p q := by
  have strip : ∀ l : List Ins, (∀ i ∈ l, Spec.WellFormed t i.op i.dst i.src i.off i.cons) →
      ∀ i ∈ l.map (fun i => if i.isLoadFromMap then { i with cons := 0#64 } else i),
        Spec.WellFormed t i.op i.dst i.src i.off i.cons := by
    intro l hl i hi
    obtain ⟨j, hj, rfl⟩ := List.mem_map.1 hi
    have wf := hl j hj
    by_cases hm : j.isLoadFromMap = true
    · rw [if_pos hm]
      have hop := ((isLoadFromMap_iff j).1 hm).1
      obtain ⟨op, d, s, off, c⟩ := j
      simp only at hop; subst hop
      simp only at wf ⊢
      have hd : d.toNat < 16 ∧ s.toNat < 16 := by
        cases wf with
        | dword _ _ _ _ hd hs => exact ⟨hd, hs⟩
        | helper _ _ _ hop _ => exact absurd hop (by decide)
        | alu _ _ _ _ _ _ hd hs _ => exact ⟨hd, hs⟩
        | aluExt _ _ _ _ _ _ hd hs _ => exact ⟨hd, hs⟩
        | atomic _ _ _ _ _ _ _ _ _ hd hs _ => exact ⟨hd, hs⟩
        | other _ _ _ _ _ _ _ _ _ _ hd hs _ => exact ⟨hd, hs⟩
      exact .dword _ _ _ _ hd.1 hd.2
    · rw [if_neg hm]; exact wf
  unfold hashInput at h
  obtain ⟨w, h1, h2, h3⟩ := stream_roundtrip bo plat t ht _ (strip p hp)
  obtain ⟨w', g1, g2, g3⟩ := stream_roundtrip bo plat t ht _ (strip q hq)
  rw [h1, g1] at h
  simp only [Except.ok.injEq] at h
  subst h
  rw [h3] at g3
  simp only [Except.ok.injEq] at g3
  clear h1 h2 h3 g1 g2 hp hq
  induction p generalizing q with
  | nil => cases q with
    | nil => trivial
    | cons => simp at g3
  | cons i p ih =>
    cases q with
    | nil => simp at g3
    | cons j q =>
      simp only [List.map_cons, List.cons.injEq] at g3
      refine ⟨?_, ih q g3.2⟩
      have e := g3.1
      by_cases hi : i.isLoadFromMap = true
      · rw [if_pos hi] at e
        by_cases hj : j.isLoadFromMap = true
        · rw [if_pos hj] at e
          right
          refine ⟨(isLoadFromMap_iff i).1 hi, ?_⟩
          cases i; cases j; simp_all
        · rw [if_neg hj] at e
          exfalso; apply hj; rw [← e]; exact hi
      · rw [if_neg hi] at e
        by_cases hj : j.isLoadFromMap = true
        · rw [if_pos hj] at e
          exfalso; apply hi; rw [e]; exact hj
        · rw [if_neg hj] at e
          exact Or.inl e

example : EqualUpToMaps [⟨0x18#32, 1#8, 1#8, 0#16, 5#64⟩, ⟨0x95#32, 0#8, 0#8, 0#16, 0#64⟩]
    [⟨0x18#32, 1#8, 1#8, 0#16, 9#64⟩, ⟨0x95#32, 0#8, 0#8, 0#16, 0#64⟩] := by
  refine ⟨Or.inr ⟨⟨rfl, Or.inl rfl⟩, rfl⟩, Or.inl rfl, trivial⟩

/-! ## Map file descriptors in a program -/

/-- C07. When `Instructions.Marshal` resolves map references it changes nothing but the descriptor half of map
loads with an associated map, and all those maps are open. -/
theorem map_pointers_exact : ∀ (p q : List PIns), encodeMapPointers p = .ok q →
    q.length = p.length ∧ ∀ (i : Nat) (a b : PIns), p[i]? = some a → q[i]? = some b →
      (a.ins.isLoadFromMap = true → ∀ fd : Int, a.map = some fd →
        0 ≤ fd ∧ mapFd b.ins.cons = BitVec.ofInt 32 fd ∧ mapOffset b.ins.cons = mapOffset a.ins.cons ∧
        b = { a with ins := { a.ins with cons := b.ins.cons } }) ∧
      (a.ins.isLoadFromMap = false ∨ a.map = none → b = a)
  | [], q, h => by
    simp only [encodeMapPointers, Except.ok.injEq] at h; subst h; simp
  | x :: r, q, h => by
    simp only [encodeMapPointers] at h
    split at h
    · simp at h
    · rename_i j hj
      split at h
      · simp at h
      · rename_i r' hr
        simp only [Except.ok.injEq] at h
        subst h
        have ih := map_pointers_exact r r' hr
        refine ⟨by simp [ih.1], ?_⟩
        intro i a b ha hb
        cases i with
        | succ i => exact ih.2 i a b (by simpa using ha) (by simpa using hb)
        | zero =>
          simp at ha hb
          subst ha hb
          cases hl : x.ins.isLoadFromMap
          · simp only [hl, Bool.not_false, if_true, Except.ok.injEq] at hj
            subst hj
            simp
          · simp only [hl, Bool.not_true, Bool.false_eq_true, if_false] at hj
            cases hm : x.map with
            | none =>
              simp only [hm, Except.ok.injEq] at hj
              subst hj; simp
            | some fd =>
              simp only [hm] at hj
              split at hj
              · simp at hj
              · rename_i hfd
                simp only [Except.ok.injEq] at hj
                subst hj
                refine ⟨fun _ fd' hfd' => ?_, fun h => by simp at h⟩
                simp only [Option.some.injEq] at hfd'
                subst hfd'
                exact ⟨by omega, mapFd_encode _ _, mapOffset_encode _ _, rfl⟩

/-- C07. A program that refers to a closed map (`FD()` negative) is not encoded. -/
theorem closed_map_rejected (native : String) (bo : ByteOrder) (p : List PIns) (a : PIns) (fd : Int)
    (ha : a ∈ p) (hr : a.ref = "") (hl : a.ins.isLoadFromMap = true) (hm : a.map = some fd) (hfd : fd < 0) :
    ∃ e, marshalProgram native bo p = .error e := by
  have key : ∀ (syms : List (String × Nat)) (p : List PIns) (off : Nat) (q : List PIns),
      encodeRefs syms p off = .ok q → a ∈ p → a ∈ q := by
    intro syms p
    induction p with
    | nil => intro off q _ hm; simp at hm
    | cons x r ih =>
      intro off q h hmem
      simp only [encodeRefs] at h
      split at h
      · simp at h
      · rename_i j hj
        split at h
        · simp at h
        · rename_i r' hr'
          simp only [Except.ok.injEq] at h
          subst h
          rcases List.mem_cons.1 hmem with rfl | hmem
          · simp [encodeRef, hr] at hj
            simp [hj]
          · exact List.mem_cons_of_mem _ (ih _ _ hr' hmem)
  simp only [marshalProgram]
  cases h1 : encodeFunctionReferences p with
  | error e => exact ⟨e, rfl⟩
  | ok p1 =>
    have hmem : a ∈ p1 := by
      simp only [encodeFunctionReferences] at h1
      split at h1
      · simp at h1
      · exact key _ _ _ _ h1 ha
    cases h2 : encodeMapPointers p1 with
    | error e => exact ⟨e, by simp only [h2]⟩
    | ok p2 =>
      exfalso
      have hx := map_pointers_exact p1 p2 h2
      obtain ⟨i, hi, hia⟩ := List.getElem_of_mem hmem
      have h3 : p1[i]? = some a := by rw [List.getElem?_eq_getElem hi, hia]
      have hi2 : i < p2.length := by omega
      have := ((hx.2 i a p2[i] h3 (List.getElem?_eq_getElem hi2)).1 hl fd hm).1
      omega

/-- Non-vacuity: a load of a closed map in front of an exit. -/
example : marshalProgram "linux" .little
    [⟨⟨0x18#32, 1#8, 1#8, 0#16, 0#64⟩, "", "", some (-1)⟩, ⟨⟨0x95#32, 0#8, 0#8, 0#16, 0#64⟩, "", "", none⟩]
      = .error .closedFd := by decide
/-- Non-vacuity: descriptor 7 lands in the low half, the offset in the high half is kept. -/
example : encodeMapPointers [⟨⟨0x18#32, 1#8, 2#8, 0#16, 0x1200000000#64⟩, "", "", some 7⟩]
    = .ok [⟨⟨0x18#32, 1#8, 2#8, 0#16, 0x1200000007#64⟩, "", "", some 7⟩] := by decide

end Ebpf.Asm
