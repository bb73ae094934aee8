import Verif.Model.LinkerFixups
import Verif.Model.Linker
import Verif.Props.Platform
/-!
# C62: kernel functions
-/
set_option linter.unusedSimpArgs false
namespace Ebpf.LinkerFix
open Ebpf.Asm

/-- The kernel has function `n` under BTF id `id`, with a compatible type, in the given module. -/
def KfuncAnswer (o : Oracle) (n : Bytes) (id : BitVec 32) (module : Option Nat) : Prop :=
  ∃ k, o k n = .found (some id) module true

/-- The kernel did not know `n`. -/
def KfuncMissing (o : Oracle) (n : Bytes) : Prop := ∃ k, o k n = .notFound

/-- Specification: what linking may do to an instruction, given the table of file descriptors passed to
the kernel. -/
inductive KfuncOutcome (native : String) (o : Oracle) (fds : List Nat) (i : LIns) : LIns → Prop
  /-- not a kfunc reference: unchanged -/
  | other : i.kfunc = none → KfuncOutcome native o fds i i
  /-- resolved: the immediate is the BTF id, and the offset is the position in the table of the module
  that id belongs to (position 0, holding 0, stands for the kernel itself) -/
  | resolved (m : KfuncMeta) (id : BitVec 32) (module : Option Nat) (idx : Nat) (src : BitVec 8) (j : LIns) :
      i.kfunc = some m → KfuncAnswer o m.name id module →
      idx ≤ 32767 → fds[idx]? = some (module.getD 0) → (module = none → idx = 0) →
      (src = i.p.ins.src ∨ src = 0#8 ∧ m.weak = true ∧ i.p.ins.op.isDWordLoad = true) →
      j = { i with p := { i.p with ins := { i.p.ins with src := src, cons := id.setWidth 64, off := BitVec.ofNat 16 idx } } } →
      KfuncOutcome native o fds i j
  /-- weak, missing, a call: replaced by a call of a helper that does not exist -/
  | poisoned (m : KfuncMeta) (c : BitVec 32) (j : LIns) :
      i.kfunc = some m → m.weak = true → KfuncMissing o m.name → i.p.ins.isKfuncCall = true →
      Platform.encodeConstant native 0xdedc0de#32 = some c →
      j = { p := { ins := ⟨0x85#32, 0#8, 0#8, 0#16, c.setWidth 64⟩ } } → KfuncOutcome native o fds i j
  /-- weak, missing, a load of the address: a load of zero -/
  | zeroed (m : KfuncMeta) (j : LIns) :
      i.kfunc = some m → m.weak = true → KfuncMissing o m.name → i.p.ins.op.isDWordLoad = true →
      j = { i with p := { i.p with ins := { i.p.ins with src := 0#8, cons := 0#64 } } } → KfuncOutcome native o fds i j

theorem KfuncOutcome.mono {native : String} {o : Oracle} {fds more : List Nat} {i j : LIns} (h : KfuncOutcome native o fds i j) :
    KfuncOutcome native o (fds ++ more) i j := by
  cases h with
  | other h => exact .other h
  | resolved m id module idx src j h1 h2 h3 h4 h5 h6 h7 =>
    refine .resolved m id module idx src j h1 h2 h3 ?_ h5 h6 h7
    rw [List.getElem?_append_left]
    · exact h4
    · apply Classical.byContradiction; intro hn
      rw [List.getElem?_eq_none (by omega)] at h4; cases h4
  | poisoned m c j h1 h2 h3 h4 h5 h6 => exact .poisoned m c j h1 h2 h3 h4 h5 h6
  | zeroed m j h1 h2 h3 h4 h5 => exact .zeroed m j h1 h2 h3 h4 h5

/-- The instruction at the current position: untouched, already replaced by a poisoned call, or a weak
load that was zeroed (the loop visits the last instruction again after a weak fixup). -/
inductive Cur (native : String) (o : Oracle) (fds : List Nat) (i : LIns) : LIns → Prop
  | orig : Cur native o fds i i
  | done (j : LIns) : j.kfunc = none → KfuncOutcome native o fds i j → Cur native o fds i j
  | zero (m : KfuncMeta) : i.kfunc = some m → m.weak = true → KfuncMissing o m.name → i.p.ins.op.isDWordLoad = true →
      Cur native o fds i (zeroLoad i)

/-- Loop invariant. -/
structure KInv (native : String) (o : Oracle) (l : List LIns) (s : KState) : Prop where
  len : s.insns.length = l.length
  pos : s.pos < l.length
  owned : s.acquired = s.handles
  small : s.handles.length ≤ maxModules
  before : ∀ (k : Nat) (i : LIns), k < s.pos → l[k]? = some i →
    ∃ j : LIns, s.insns[k]? = some j ∧ KfuncOutcome native o (fdArray s.handles) i j
  cur : ∀ i : LIns, l[s.pos]? = some i → ∃ c : LIns, s.insns[s.pos]? = some c ∧ Cur native o (fdArray s.handles) i c
  after : ∀ k : Nat, s.pos < k → s.insns[k]? = l[k]?

/-- Final condition. -/
structure KDone (native : String) (o : Oracle) (l : List LIns) (s : KState) : Prop where
  len : s.insns.length = l.length
  owned : s.acquired = s.handles
  all : ∀ (k : Nat) (i : LIns), l[k]? = some i →
    ∃ j : LIns, s.insns[k]? = some j ∧ KfuncOutcome native o (fdArray s.handles) i j

/-- All but the current instruction are fine, and so is the current one, for the handles of `s`. -/
theorem advance_ok (native : String) (o : Oracle) (l : List LIns) (s : KState)
    (hlen : s.insns.length = l.length) (hpos : s.pos < l.length) (hown : s.acquired = s.handles)
    (hsm : s.handles.length ≤ maxModules)
    (hb : ∀ (k : Nat) (i : LIns), k ≤ s.pos → l[k]? = some i →
      ∃ j : LIns, s.insns[k]? = some j ∧ KfuncOutcome native o (fdArray s.handles) i j)
    (ha : ∀ k : Nat, s.pos < k → s.insns[k]? = l[k]?) :
    (∀ s', s.advance = .next s' → KInv native o l s' ∧ s'.pos = s.pos + 1) ∧ (∀ s', s.advance = .done s' → KDone native o l s') ∧
      ∀ e s', s.advance ≠ .failed e s' := by
  unfold KState.advance KState.hasNext KState.next
  by_cases hn : s.pos + 1 < s.insns.length
  · simp only [hn, decide_true, if_true]
    refine ⟨?_, (by intro s' h; cases h), (by intro e s' h; cases h)⟩
    intro s' h
    injection h with h
    subst h
    refine ⟨⟨hlen, by simp only; omega, hown, hsm, ?_, ?_, ?_⟩, rfl⟩
    · intro k i hk hi; exact hb k i (by simp only at hk; omega) hi
    · intro i hi
      simp only at hi ⊢
      exact ⟨i, by rw [ha _ (by omega)]; exact hi, .orig⟩
    · intro k hk; exact ha k (by simp only at hk; omega)
  · simp only [hn, decide_false]
    refine ⟨(by intro s' h; cases h), ?_, (by intro e s' h; cases h)⟩
    intro s' h
    injection h with h
    subst h
    refine ⟨hlen, hown, ?_⟩
    intro k i hi
    have : k < l.length := by
      apply Classical.byContradiction; intro hc
      rw [List.getElem?_eq_none (by omega)] at hi; cases hi
    exact hb k i (by omega) hi

theorem next_ok (native : String) (o : Oracle) (l : List LIns) (s : KState)
    (hlen : s.insns.length = l.length) (hpos : s.pos < l.length) (hown : s.acquired = s.handles)
    (hsm : s.handles.length ≤ maxModules)
    (hb : ∀ (k : Nat) (i : LIns), k < s.pos → l[k]? = some i →
      ∃ j : LIns, s.insns[k]? = some j ∧ KfuncOutcome native o (fdArray s.handles) i j)
    (hc : ∀ i : LIns, l[s.pos]? = some i → ∃ c : LIns, s.insns[s.pos]? = some c ∧
      Cur native o (fdArray s.handles) i c ∧ KfuncOutcome native o (fdArray s.handles) i c)
    (ha : ∀ k : Nat, s.pos < k → s.insns[k]? = l[k]?) :
    KInv native o l s.next := by
  unfold KState.next
  by_cases hn : s.pos + 1 < s.insns.length
  · rw [if_pos hn]
    refine ⟨hlen, by simp only; omega, hown, hsm, ?_, ?_, ?_⟩
    · intro k i hk hi
      simp only at hk ⊢
      by_cases hk' : k < s.pos
      · exact hb k i hk' hi
      · have : k = s.pos := by omega
        subst this
        obtain ⟨c, h1, _, h2⟩ := hc i hi
        exact ⟨c, h1, h2⟩
    · intro i hi
      simp only at hi ⊢
      exact ⟨i, by rw [ha _ (by omega)]; exact hi, .orig⟩
    · intro k hk; exact ha k (by simp only at hk; omega)
  · rw [if_neg hn]
    refine ⟨hlen, hpos, hown, hsm, hb, ?_, ha⟩
    intro i hi
    obtain ⟨c, h1, h2, _⟩ := hc i hi
    exact ⟨c, h1, h2⟩

theorem addHandle_idx (hs : List Nat) (m : Option Nat) (hs' : List Nat) (idx : Nat) (h : addHandle hs m = some (hs', idx))
    (hsm : hs.length ≤ maxModules) :
    hs' = hs ++ m.toList ∧ hs'.length ≤ maxModules ∧ idx ≤ 32767 ∧ (fdArray hs')[idx]? = some (m.getD 0) ∧ (m = none → idx = 0) := by
  unfold addHandle at h
  cases m with
  | none =>
    simp at h
    obtain ⟨rfl, rfl⟩ := h
    exact ⟨by simp, hsm, by omega, rfl, fun _ => rfl⟩
  | some x =>
    simp only at h
    by_cases hl : hs.length = maxModules
    · rw [if_pos hl] at h; cases h
    · rw [if_neg hl] at h
      simp at h
      obtain ⟨rfl, rfl⟩ := h
      unfold maxModules at hl hsm
      refine ⟨rfl, by simp [maxModules]; omega, by omega, ?_, by simp⟩
      simp [fdArray]

theorem getElem?_set_ne' {α : Type} (l : List α) (p k : Nat) (x : α) (h : p ≠ k) : (l.set p x)[k]? = l[k]? := by
  rw [List.getElem?_set]; simp [h]

theorem kfuncStep_ok (native : String) (o : Oracle) (l : List LIns) (s : KState) (hI : KInv native o l s) :
    (∀ s', kfuncStep native o s = .next s' → KInv native o l s') ∧
    (∀ s', kfuncStep native o s = .done s' → KDone native o l s') ∧
    (∀ e s', kfuncStep native o s = .failed e s' → e ≠ .tooMany → s'.acquired = s'.handles) := by
  obtain ⟨i, hi⟩ : ∃ i : LIns, l[s.pos]? = some i := ⟨l[s.pos]'hI.pos, List.getElem?_eq_getElem hI.pos⟩
  obtain ⟨c, hcur, hC⟩ := hI.cur i hi
  have hpos' : s.pos < s.insns.length := by rw [hI.len]; exact hI.pos
  have hset : ∀ x : LIns, (s.insns.set s.pos x)[s.pos]? = some x := by
    intro x; rw [List.getElem?_set]; simp [hpos']
  have hop : c.p.ins.op = i.p.ins.op ∨ c.kfunc = none := by
    cases hC with
    | orig => exact Or.inl rfl
    | done j h _ => exact Or.inr h
    | zero => exact Or.inl rfl
  unfold kfuncStep
  rw [hcur]
  simp only
  cases hk : c.kfunc with
  | none =>
    simp only
    have hout : KfuncOutcome native o (fdArray s.handles) i c := by
      cases hC with
      | orig => exact .other hk
      | done j _ h => exact h
      | zero m h => simp [zeroLoad, h] at hk
    obtain ⟨h1, h2, h3⟩ := advance_ok native o l s hI.len hI.pos hI.owned hI.small
      (by intro k i' hk' hi'
          by_cases hlt : k < s.pos
          · exact hI.before k i' hlt hi'
          · have : k = s.pos := by omega
            subst this
            rw [hi] at hi'; injection hi' with hi'; subst hi'
            exact ⟨c, hcur, hout⟩) hI.after
    exact ⟨fun s' h => (h1 s' h).1, h2, fun e s' h => absurd h (h3 e s')⟩
  | some m =>
    simp only
    -- the metadata is that of the original instruction
    have hm : i.kfunc = some m ∧ (c = i ∨ (c = zeroLoad i ∧ m.weak = true ∧ KfuncMissing o m.name ∧ i.p.ins.op.isDWordLoad = true)) := by
      cases hC with
      | orig => exact ⟨hk, Or.inl rfl⟩
      | done j h _ => rw [h] at hk; cases hk
      | zero m' h1 h2 h3 h4 =>
        have : (zeroLoad i).kfunc = i.kfunc := rfl
        rw [this, h1] at hk; injection hk with hk; subst hk
        exact ⟨h1, Or.inr ⟨rfl, h2, h3, h4⟩⟩
    obtain ⟨him, hci⟩ := hm
    have hcop : c.p.ins.op = i.p.ins.op := by
      rcases hop with h | h
      · exact h
      · rw [hk] at h; cases h
    cases ho : o s.calls m.name with
    | failed =>
      simp only
      exact ⟨(by intro s' h; cases h), (by intro s' h; cases h), by intro e s' h _; injection h with _ h; subst h; exact hI.owned⟩
    | notFound =>
      simp only
      have hmiss : KfuncMissing o m.name := ⟨_, ho⟩
      by_cases hw : m.weak = true
      · rw [if_pos hw]
        by_cases hcall : c.p.ins.isKfuncCall = true
        · rw [if_pos hcall]
          have hicall : i.p.ins.isKfuncCall = true := by
            rcases hci with rfl | ⟨rfl, _⟩
            · exact hcall
            · exfalso; revert hcall; simp [zeroLoad, Ins.isKfuncCall, Ins.PseudoKfuncCall]
          cases he : Platform.encodeConstant native kfuncCallPoisonBase with
          | none =>
            simp only
            exact ⟨(by intro s' h; cases h), (by intro s' h; cases h),
              by intro e s' h _; injection h with _ h; subst h; exact hI.owned⟩
          | some k =>
            simp only
            refine ⟨?_, (by intro s' h; cases h), by intro e s' h; cases h⟩
            intro s' h
            injection h with h
            subst h
            have hout : KfuncOutcome native o (fdArray s.handles) i (poisonCall k) :=
              .poisoned m k _ him hw hmiss hicall he rfl
            apply next_ok native o l { s with insns := s.insns.set s.pos (poisonCall k), calls := s.calls + 1 } (by simp [hI.len]) hI.pos hI.owned hI.small
            · intro q i' hq hi'
              obtain ⟨j, h1, h2⟩ := hI.before q i' hq hi'
              exact ⟨j, by simp only; rw [getElem?_set_ne' _ _ _ _ (by simp only at hq; omega)]; exact h1, h2⟩
            · intro i' hi'
              simp only at hi'
              rw [hi] at hi'; injection hi' with hi'; subst hi'
              exact ⟨_, hset _, .done _ rfl hout, hout⟩
            · intro q hq; simp only at hq ⊢; rw [getElem?_set_ne' _ _ _ _ (by omega)]; exact hI.after q hq
        · rw [if_neg hcall]
          by_cases hdw : c.p.ins.op.isDWordLoad = true
          · rw [if_pos hdw]
            refine ⟨?_, (by intro s' h; cases h), by intro e s' h; cases h⟩
            intro s' h
            injection h with h
            subst h
            have hidw : i.p.ins.op.isDWordLoad = true := hcop ▸ hdw
            have hz : zeroLoad c = zeroLoad i := by
              rcases hci with rfl | ⟨rfl, _⟩ <;> rfl
            have hout : KfuncOutcome native o (fdArray s.handles) i (zeroLoad c) :=
              hz ▸ .zeroed m _ him hw hmiss hidw rfl
            apply next_ok native o l { s with insns := s.insns.set s.pos (zeroLoad c), calls := s.calls + 1 } (by simp [hI.len]) hI.pos hI.owned hI.small
            · intro q i' hq hi'
              obtain ⟨j, h1, h2⟩ := hI.before q i' hq hi'
              exact ⟨j, by simp only; rw [getElem?_set_ne' _ _ _ _ (by simp only at hq; omega)]; exact h1, h2⟩
            · intro i' hi'
              simp only at hi'
              rw [hi] at hi'; injection hi' with hi'; subst hi'
              exact ⟨_, hset _, hz ▸ .zero m him hw hmiss hidw, hout⟩
            · intro q hq; simp only at hq ⊢; rw [getElem?_set_ne' _ _ _ _ (by omega)]; exact hI.after q hq
          · rw [if_neg hdw]
            exact ⟨(by intro s' h; cases h), (by intro s' h; cases h),
              by intro e s' h _; injection h with _ h; subst h; exact hI.owned⟩
      · rw [if_neg hw]
        exact ⟨(by intro s' h; cases h), (by intro s' h; cases h),
          by intro e s' h _; injection h with _ h; subst h; exact hI.owned⟩
    | found id module compat =>
      simp only
      cases hadd : addHandle s.handles module with
      | none =>
        simp only
        exact ⟨(by intro s' h; cases h), (by intro s' h; cases h), by intro e s' h he; injection h with h; exact absurd h.symm he⟩
      | some r =>
        obtain ⟨hs', idx⟩ := r
        obtain ⟨g1, g2, g3, g4, g5⟩ := addHandle_idx _ _ _ _ hadd hI.small
        have hown' : s.acquired ++ module.toList = hs' := by rw [g1, hI.owned]
        have hfd : fdArray hs' = fdArray s.handles ++ module.toList := by rw [g1]; rfl
        simp only
        by_cases hcompat : compat = true
        · rw [if_neg (by simp [hcompat])]
          cases id with
          | none =>
            simp only
            exact ⟨(by intro s' h; cases h), (by intro s' h; cases h),
              by intro e s' h _; injection h with _ h; subst h; exact hown'⟩
          | some id =>
            simp only
            have hout : KfuncOutcome native o (fdArray hs') i (setKfunc c id idx) := by
              refine .resolved m id module idx c.p.ins.src _ him ⟨_, hcompat ▸ ho⟩ g3 g4 g5 ?_ ?_
              · rcases hci with rfl | ⟨rfl, h1, _, h3⟩
                · exact Or.inl rfl
                · exact Or.inr ⟨rfl, h1, h3⟩
              · rcases hci with rfl | ⟨rfl, _⟩ <;> rfl
            have := advance_ok native o l
              { s with calls := s.calls + 1, acquired := s.acquired ++ module.toList, handles := hs', insns := s.insns.set s.pos (setKfunc c id idx) }
              (by simp [hI.len]) hI.pos hown' g2
              (by intro q i' hq hi'
                  simp only at hq ⊢
                  by_cases hlt : q < s.pos
                  · obtain ⟨j, h1, h2⟩ := hI.before q i' hlt hi'
                    exact ⟨j, by rw [getElem?_set_ne' _ _ _ _ (by omega)]; exact h1, hfd ▸ h2.mono⟩
                  · have : q = s.pos := by omega
                    subst this
                    rw [hi] at hi'; injection hi' with hi'; subst hi'
                    exact ⟨_, hset _, hout⟩)
              (by intro q hq; simp only at hq ⊢; rw [getElem?_set_ne' _ _ _ _ (by omega)]; exact hI.after q hq)
            obtain ⟨h1, h2, h3⟩ := this
            exact ⟨fun s' h => (h1 s' h).1, h2, fun e s' h => absurd h (h3 e s')⟩
        · rw [if_pos (by simp [hcompat])]
          exact ⟨(by intro s' h; cases h), (by intro s' h; cases h),
            by intro e s' h _; injection h with _ h; subst h; exact hown'⟩

theorem kfuncRun_ok (native : String) (o : Oracle) (l : List LIns) (n : Nat) : ∀ s : KState, KInv native o l s →
    (∀ s', kfuncRun native o n s = .done s' → KDone native o l s') ∧
    (∀ e s', kfuncRun native o n s = .failed e s' → e ≠ .tooMany → s'.acquired = s'.handles) := by
  induction n with
  | zero => intro s _; exact ⟨(by intro s' h; cases h), by intro e s' h; cases h⟩
  | succ n ih =>
    intro s hI
    obtain ⟨h1, h2, h3⟩ := kfuncStep_ok native o l s hI
    unfold kfuncRun
    cases hs : kfuncStep native o s with
    | next s' => exact ih s' (h1 s' hs)
    | done s' => exact ⟨fun s'' h => by injection h with h; exact h ▸ h2 s' hs, by intro e s' h; cases h⟩
    | failed e s' => exact ⟨(by intro s' h; cases h), fun e' s'' h he => by injection h with h h'; exact h' ▸ h3 e s' hs (h ▸ he)⟩

theorem kfuncStart_inv (native : String) (o : Oracle) (l : List LIns) (s : KState) (h : kfuncStart l = some s) :
    KInv native o l s := by
  unfold kfuncStart firstKfunc at h
  cases hf : l.findIdx? (fun i => i.kfunc.isSome) with
  | none => rw [hf] at h; cases h
  | some n =>
    rw [hf] at h
    injection h with h
    subst h
    rw [List.findIdx?_eq_some_iff_getElem] at hf
    obtain ⟨hlt, hp, hbefore⟩ := hf
    refine ⟨rfl, hlt, rfl, by simp [maxModules], ?_, ?_, fun _ _ => rfl⟩
    · intro k i hk hi
      refine ⟨i, hi, .other ?_⟩
      have hk' : k < l.length := Nat.lt_trans hk hlt
      have := hbefore k hk
      rw [List.getElem?_eq_getElem hk'] at hi
      injection hi with hi
      rw [hi] at this
      simpa using this
    · intro i hi; exact ⟨i, hi, .orig⟩

/-- **C62.** Every successful run, whatever the kernel answers: each instruction has one of the
outcomes above. In particular a resolved reference carries the BTF id the kernel gave for that very
function, and the entry of the descriptor table it points to is the module that id belongs to. All
module handles acquired are in the table, so none is lost. -/
theorem kfunc_sound (native : String) (o : Oracle) (n : Nat) (l : List LIns) (handles : List Nat) (l' : List LIns) (hs : Handles)
    (h : fixupKfuncs native o n l = some (.ok (handles, l'), hs)) :
    hs.acquired = handles ∧ hs.closed = [] ∧ l'.length = l.length ∧
    ∀ (k : Nat) (i : LIns), l[k]? = some i → ∃ j : LIns, l'[k]? = some j ∧ KfuncOutcome native o (fdArray handles) i j := by
  unfold fixupKfuncs at h
  cases hst : kfuncStart l with
  | none =>
    rw [hst] at h
    simp only [Option.some.injEq, Prod.mk.injEq, Except.ok.injEq] at h
    obtain ⟨⟨rfl, rfl⟩, rfl⟩ := h
    refine ⟨rfl, rfl, rfl, ?_⟩
    intro k i hi
    refine ⟨i, hi, .other ?_⟩
    unfold kfuncStart firstKfunc at hst
    rw [Option.map_eq_none_iff, List.findIdx?_eq_none_iff] at hst
    simpa using hst i (List.mem_of_getElem? hi)
  | some s =>
    rw [hst] at h
    simp only at h
    obtain ⟨h1, _⟩ := kfuncRun_ok native o l n s (kfuncStart_inv native o l s hst)
    cases hr : kfuncRun native o n s with
    | next s' => rw [hr] at h; cases h
    | failed e s' => rw [hr] at h; simp at h
    | done s' =>
      rw [hr] at h
      simp only [Option.some.injEq, Prod.mk.injEq, Except.ok.injEq] at h
      obtain ⟨⟨rfl, rfl⟩, rfl⟩ := h
      have hd := h1 s' hr
      exact ⟨hd.owned, rfl, hd.len, hd.all⟩

/-- **C62.** When linking kfuncs fails, every module handle acquired on the way is closed, except for
the one that does not fit when there are more than 32767 of them. -/
theorem kfunc_error_closes_partial (native : String) (o : Oracle) (n : Nat) (l : List LIns) (e : FixErr) (hs : Handles)
    (h : fixupKfuncs native o n l = some (.error e, hs)) (he : e ≠ .tooMany) : hs.closed = hs.acquired := by
  unfold fixupKfuncs at h
  cases hst : kfuncStart l with
  | none => rw [hst] at h; simp at h
  | some s =>
    rw [hst] at h
    simp only at h
    obtain ⟨_, h2⟩ := kfuncRun_ok native o l n s (kfuncStart_inv native o l s hst)
    cases hr : kfuncRun native o n s with
    | next s' => rw [hr] at h; cases h
    | done s' => rw [hr] at h; simp at h
    | failed e' s' =>
      rw [hr] at h
      simp only [Option.some.injEq, Prod.mk.injEq, Except.error.injEq] at h
      obtain ⟨rfl, rfl⟩ := h
      exact (h2 e' s' hr he).symm

/-! ## termination -/

/-- The last instruction is not a weak load of the address of a kfunc. -/
def EndsWell (l : List LIns) : Prop :=
  ∀ (i : LIns) (m : KfuncMeta), l[l.length - 1]? = some i → i.kfunc = some m → m.weak = true → i.p.ins.op.isDWordLoad = false

theorem endsWell_set (l : List LIns) (p : Nat) (x : LIns) (h : EndsWell l)
    (hx : ∀ m, p + 1 = l.length → x.kfunc = some m → m.weak = true → x.p.ins.op.isDWordLoad = false) : EndsWell (l.set p x) := by
  intro i m hi hk hw
  rw [List.length_set] at hi
  rw [List.getElem?_set] at hi
  by_cases hp : p = l.length - 1
  · rw [if_pos hp] at hi
    by_cases hl : p < l.length
    · rw [if_pos hl] at hi
      injection hi with hi; subst hi
      exact hx m (by omega) hk hw
    · rw [if_neg hl] at hi; cases hi
  · rw [if_neg hp] at hi
    exact h i m hi hk hw

/-- Remaining work: two iterations per instruction, one less if the current one has no metadata. -/
def work (s : KState) : Nat :=
  2 * (s.insns.length - s.pos) + (match s.insns[s.pos]? with
    | some i => if i.kfunc.isSome then 1 else 0
    | none => 0)

theorem work_le (s : KState) : work s ≤ 2 * (s.insns.length - s.pos) + 1 := by
  unfold work; cases s.insns[s.pos]? <;> simp <;> split <;> omega

theorem kfuncStep_progress (native : String) (o : Oracle) (s s' : KState) (hp : s.pos < s.insns.length) (he : EndsWell s.insns)
    (h : kfuncStep native o s = .next s') : work s' < work s ∧ s'.pos < s'.insns.length ∧ EndsWell s'.insns := by
  have adv : ∀ t : KState, t.pos = s.pos → t.insns.length = s.insns.length → EndsWell t.insns → t.advance = .next s' →
      work s' < work s ∧ s'.pos < s'.insns.length ∧ EndsWell s'.insns := by
    intro t ht1 ht2 ht3 h
    unfold KState.advance KState.hasNext KState.next at h
    by_cases hn : t.pos + 1 < t.insns.length
    · simp only [hn, decide_true, if_true] at h
      injection h with h
      subst h
      refine ⟨?_, hn, ht3⟩
      have h1 := work_le { t with pos := t.pos + 1 }
      have h2 : 2 * (s.insns.length - s.pos) ≤ work s := by unfold work; omega
      simp only at h1
      omega
    · simp [hn] at h
  have nxt : ∀ t : KState, t.pos = s.pos → t.insns.length = s.insns.length → EndsWell t.insns →
      (t.pos + 1 < t.insns.length ∨ (∃ c, t.insns[t.pos]? = some c ∧ c.kfunc = none)) →
      (∃ c m, s.insns[s.pos]? = some c ∧ c.kfunc = some m) → t.next = s' →
      work s' < work s ∧ s'.pos < s'.insns.length ∧ EndsWell s'.insns := by
    rintro t ht1 ht2 ht3 hor ⟨c, m, hc, hcm⟩ h
    have h2 : work s = 2 * (s.insns.length - s.pos) + 1 := by unfold work; rw [hc]; simp [hcm]
    unfold KState.next at h
    by_cases hn : t.pos + 1 < t.insns.length
    · rw [if_pos hn] at h
      subst h
      have h1 := work_le { t with pos := t.pos + 1 }
      refine ⟨?_, hn, ht3⟩
      simp only at h1
      omega
    · rw [if_neg hn] at h
      subst h
      refine ⟨?_, by omega, ht3⟩
      rcases hor with hor | ⟨c', hc', hk'⟩
      · exact absurd hor hn
      · have : work t = 2 * (t.insns.length - t.pos) := by unfold work; rw [hc']; simp [hk']
        omega
  obtain ⟨c, hc⟩ : ∃ c : LIns, s.insns[s.pos]? = some c := ⟨s.insns[s.pos]'hp, List.getElem?_eq_getElem hp⟩
  unfold kfuncStep at h
  rw [hc] at h
  simp only at h
  cases hk : c.kfunc with
  | none => rw [hk] at h; exact adv s rfl rfl he h
  | some m =>
    rw [hk] at h
    simp only at h
    cases ho : o s.calls m.name with
    | failed => rw [ho] at h; cases h
    | notFound =>
      rw [ho] at h
      simp only at h
      by_cases hw : m.weak = true
      · rw [if_pos hw] at h
        by_cases hcall : c.p.ins.isKfuncCall = true
        · rw [if_pos hcall] at h
          cases hen : Platform.encodeConstant native kfuncCallPoisonBase with
          | none => rw [hen] at h; cases h
          | some k =>
            rw [hen] at h
            simp only at h
            injection h with h
            refine nxt { s with insns := s.insns.set s.pos (poisonCall k), calls := s.calls + 1 } rfl (by simp) (endsWell_set _ _ _ he (by intro m _ h; cases h)) (Or.inr ⟨poisonCall k, ?_, rfl⟩) ⟨c, m, hc, hk⟩ h
            simp only
            rw [List.getElem?_set]; simp [hp]
        · rw [if_neg hcall] at h
          by_cases hdw : c.p.ins.op.isDWordLoad = true
          · rw [if_pos hdw] at h
            injection h with h
            have hnl : s.pos + 1 < s.insns.length := by
              apply Classical.byContradiction
              intro hn
              have hlast : s.pos = s.insns.length - 1 := by omega
              have := he c m (hlast ▸ hc) hk hw
              rw [this] at hdw; cases hdw
            refine nxt { s with insns := s.insns.set s.pos (zeroLoad c), calls := s.calls + 1 } rfl (by simp) (endsWell_set _ _ _ he (by intro m h; omega)) (Or.inl (by simp; exact hnl)) ⟨c, m, hc, hk⟩ h
          · rw [if_neg hdw] at h; cases h
      · rw [if_neg hw] at h; cases h
    | found id module compat =>
      rw [ho] at h
      simp only at h
      cases hadd : addHandle s.handles module with
      | none => rw [hadd] at h; cases h
      | some r =>
        rw [hadd] at h
        simp only at h
        by_cases hcompat : compat = true
        · rw [if_neg (by simp [hcompat])] at h
          cases id with
          | none => cases h
          | some id =>
            simp only at h
            apply adv _ _ _ _ h
            · rfl
            · simp
            · simp only
              apply endsWell_set _ _ _ he
              intro m' hlast hk' hw'
              have : s.pos = s.insns.length - 1 := by omega
              exact he c m' (this ▸ hc) hk' hw'
        · rw [if_pos (by simp [hcompat])] at h; cases h

theorem kfuncRun_progress (native : String) (o : Oracle) (n : Nat) : ∀ s : KState, s.pos < s.insns.length → EndsWell s.insns →
    work s ≤ n → ∀ s', kfuncRun native o n s ≠ .next s' := by
  induction n with
  | zero =>
    intro s hp _ hw
    have : 2 * (s.insns.length - s.pos) ≤ work s := by unfold work; omega
    omega
  | succ n ih =>
    intro s hp he hw s'
    unfold kfuncRun
    cases hs : kfuncStep native o s with
    | next t =>
      obtain ⟨h1, h2, h3⟩ := kfuncStep_progress native o s t hp he hs
      exact ih t h2 h3 (by omega) s'
    | done t => simp
    | failed e t => simp

/-- **C62.** Linking ends, whatever the kernel answers, for every program whose last instruction is not
a weak load of the address of a kfunc. -/
theorem kfunc_terminates_partial (native : String) (o : Oracle) (l : List LIns) (he : EndsWell l) :
    ∃ n r, fixupKfuncs native o n l = some r := by
  unfold fixupKfuncs
  cases hst : kfuncStart l with
  | none => exact ⟨0, _, rfl⟩
  | some s =>
    simp only
    have hI := kfuncStart_inv native o l s hst
    have hins : s.insns = l := by
      unfold kfuncStart at hst
      cases hf : firstKfunc l with
      | none => rw [hf] at hst; cases hst
      | some k => rw [hf] at hst; injection hst with hst; subst hst; rfl
    have := kfuncRun_progress native o (work s) s (by rw [hI.len]; exact hI.pos) (by rw [hins]; exact he) (Nat.le_refl _)
    refine ⟨work s, ?_⟩
    cases hr : kfuncRun native o (work s) s with
    | next s' => exact absurd hr (this s')
    | done s' => exact ⟨_, rfl⟩
    | failed e s' => exact ⟨_, rfl⟩

/-- A weak load of the address of a kfunc. -/
def weakLoad : LIns := { p := { ins := ⟨0x18#32, 1#8, 0#8, 0#16, 0#64⟩ }, kfunc := some ⟨true, []⟩ }

/-- **C62, the other case.** On a kernel without the function, a program that ends in a weak load of
its address is never rejected and never linked: the loop does not end. -/
theorem kfunc_terminates_counterexample :
    ∀ n, fixupKfuncs Platform.Linux (fun _ _ => .notFound) n [weakLoad] = none := by
  have run : ∀ n c, ∃ c', kfuncRun Platform.Linux (fun _ _ => .notFound) n { insns := [weakLoad], calls := c }
      = .next { insns := [weakLoad], calls := c' } := by
    intro n
    induction n with
    | zero => intro c; exact ⟨c, rfl⟩
    | succ n ih =>
      intro c
      obtain ⟨c', h⟩ := ih (c + 1)
      refine ⟨c', ?_⟩
      rw [← h]
      rfl
  intro n
  obtain ⟨c', h⟩ := run n 0
  unfold fixupKfuncs
  have : kfuncStart [weakLoad] = some { insns := [weakLoad] } := by decide
  rw [this]
  simp only
  rw [h]

end Ebpf.LinkerFix
