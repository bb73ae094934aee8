import Verif.Model.LinkerFixups
import Verif.Props.Kallsyms
/-!
# C61: references to kernel symbols
-/
set_option linter.unusedSimpArgs false
namespace Ebpf.LinkerFix
open Ebpf.Asm Ebpf.Kallsyms Ebpf.Spec.Kallsyms

/-! ## untyped ksyms: the address of the symbol -/

theorem mem_untypedNames (l : List LIns) (n : Bytes) :
    n ∈ untypedNames l ↔ ∃ i ∈ l, ∃ m, i.ksym = some m ∧ m.isVoid = true ∧ m.name = n := by
  induction l with
  | nil => simp [untypedNames]
  | cons i r ih =>
    unfold untypedNames
    cases hk : i.ksym with
    | none => simp only [ih, List.mem_cons, exists_eq_or_imp, hk]; simp
    | some m =>
      simp only [List.mem_cons, exists_eq_or_imp, hk, Option.some.injEq, exists_eq_left']
      by_cases hv : m.isVoid = true
      · by_cases hc : (untypedNames r).contains m.name = true
        · rw [if_neg (by simp [hv] at hc ⊢; exact hc), ih]
          have hc' : m.name ∈ untypedNames r := by simpa using hc
          constructor
          · exact Or.inr
          · rintro (⟨_, h⟩ | h)
            · rw [← ih, ← h]; exact hc'
            · exact h
        · rw [if_pos (by simp [hv] at hc ⊢; exact hc), List.mem_cons, ih]
          constructor
          · rintro (h | h)
            · exact Or.inl ⟨hv, h.symm⟩
            · exact Or.inr h
          · rintro (⟨_, h⟩ | h)
            · exact Or.inl h.symm
            · exact Or.inr h
      · rw [if_neg (by simp [hv]), ih]
        constructor
        · exact Or.inr
        · rintro (⟨h, _⟩ | h)
          · exact absurd h hv
          · exact h

/-- Whatever the outcome of a lookup, a non-zero answer is the address of the only line of the symbol. -/
theorem assign_sound (t : Table) (lines : List Bytes) (ht : tableOf lines = some t) (cache : SymMap)
    (hc : CacheOk t cache) (names : List Bytes) (n : Bytes)
    (h : (assign cache (some ⟨lines, false⟩) names (fun _ => 0)).2.2 n ≠ 0) :
    addrs t n = [(assign cache (some ⟨lines, false⟩) names (fun _ => 0)).2.2 n] := by
  have res : ∀ a, Resolvable t n → a = address t n → a ≠ 0 → addrs t n = [a] := by
    intro a hr ha h0
    rcases hr with hr | ⟨b, hb, _⟩
    · subst ha; unfold address at h0; rw [hr] at h0; exact absurd rfl h0
    · rw [hb, ha]; unfold address; rw [hb]; rfl
  obtain ⟨h1, h2, _⟩ := assign_exact t lines ht cache hc names (fun _ => 0)
  cases hr : (assign cache (some ⟨lines, false⟩) names (fun _ => 0)).1 with
  | none =>
    have hv := h2 hr n
    by_cases hn : n ∈ names
    · rw [if_pos hn] at hv
      exact res _ (h1.1 hr n hn) hv h
    · rw [if_neg hn] at hv; exact absurd hv h
  | some e =>
    have hv : (assign cache (some ⟨lines, false⟩) names (fun _ => 0)).2.2 n =
        if n ∈ names then (cache n).getD 0 else 0 := by
      unfold assign at hr ⊢
      by_cases hnil : names = []
      · rw [if_pos hnil] at hr; cases hr
      · rw [if_neg hnil] at hr ⊢
        simp only at hr ⊢
        by_cases hreq : names.filter (fun n => (cache n).isNone) = []
        · rw [if_pos hreq] at hr; cases hr
        · rw [if_neg hreq] at hr ⊢
          cases ha : assignAddresses ⟨lines, false⟩ (names.filter (fun n => (cache n).isNone))
              (fun n => if n ∈ names.filter (fun n => (cache n).isNone) then some 0 else none) with
          | error e => simp only [ha]
          | ok m => rw [ha] at hr; cases hr
    rw [hv] at h ⊢
    by_cases hn : n ∈ names
    · rw [if_pos hn] at h ⊢
      cases hcn : cache n with
      | none => rw [hcn] at h; exact absurd rfl h
      | some a =>
        rw [hcn] at h
        obtain ⟨hr', ha⟩ := hc n a hcn
        exact res a hr' ha h
    · rw [if_neg hn] at h; exact absurd rfl h

theorem untypedLoop_get (addr : Bytes → BitVec 64) (l : List LIns) (k : Nat) (i : LIns) (hi : l[k]? = some i) :
    (untypedLoop addr l).1[k]? = some ((untypedOne addr i).getD i) := by
  unfold untypedLoop; simp [hi]

theorem untypedLoop_ok (addr : Bytes → BitVec 64) (l : List LIns) :
    (untypedLoop addr l).2 = false ↔ ∀ i ∈ l, ∀ m, i.ksym = some m → m.isVoid = true → addr m.name = 0 → m.weak = true := by
  unfold untypedLoop
  simp only [List.any_eq_false]
  constructor
  · intro h i hi m hm hv h0
    have := h i hi
    unfold untypedOne at this
    rw [hm] at this
    simp only [hv, if_true, h0] at this
    cases hw : m.weak with
    | true => rfl
    | false => rw [hw] at this; simp at this
  · intro h i hi
    unfold untypedOne
    cases hk : i.ksym with
    | none => simp
    | some m =>
      simp only
      by_cases hv : m.isVoid = true
      · rw [if_pos hv]
        by_cases h0 : addr m.name = 0
        · rw [h i hi m hk hv h0]; simp
        · simp; exact fun h => absurd h h0
      · rw [if_neg hv]; simp

/-- **C61 (untyped).** Every successful resolution, whatever was cached before: an instruction that
refers to an untyped kernel symbol gets, as its 64 bit immediate, the address on the only line of that
symbol in the kernel's symbol table, or zero if the symbol is weak. Nothing else about it changes and
other instructions are not touched. The cache stays correct. -/
theorem untyped_sound (t : Table) (lines : List Bytes) (ht : tableOf lines = some t) (cache : SymMap)
    (hc : CacheOk t cache) (l : List LIns) (cache' : SymMap) (l' : List LIns)
    (h : applyUntyped cache (some ⟨lines, false⟩) l = (none, cache', l')) :
    CacheOk t cache' ∧ l'.length = l.length ∧
    ∀ (k : Nat) (i : LIns), l[k]? = some i → ∃ j : LIns, l'[k]? = some j ∧
      ((∀ m, i.ksym = some m → m.isVoid = false) → j = i) ∧
      (∀ m, i.ksym = some m → m.isVoid = true → ∃ a : BitVec 64, j = i.setCons a ∧
        (a ≠ 0 → addrs t m.name = [a]) ∧ (a = 0 → m.weak = true)) := by
  unfold applyUntyped at h
  by_cases hnil : untypedNames l = []
  · rw [if_pos hnil] at h
    simp only [Prod.mk.injEq, true_and] at h
    obtain ⟨rfl, rfl⟩ := h
    refine ⟨hc, rfl, ?_⟩
    intro k i hi
    refine ⟨i, hi, fun _ => rfl, ?_⟩
    intro m hm hv
    have : m.name ∈ untypedNames l := (mem_untypedNames l m.name).2 ⟨i, List.mem_of_getElem? hi, m, hm, hv, rfl⟩
    rw [hnil] at this; cases this
  · rw [if_neg hnil] at h
    have hcache := (assign_exact t lines ht cache hc (untypedNames l) (fun _ => 0)).2.2
    have hsound := assign_sound t lines ht cache hc (untypedNames l)
    generalize assign cache (some ⟨lines, false⟩) (untypedNames l) (fun _ => 0) = r at h hcache hsound
    obtain ⟨err, c2, addr⟩ := r
    simp only at h hcache hsound
    have key : (untypedLoop addr l).2 = false ∧ c2 = cache' ∧ (untypedLoop addr l).1 = l' := by
      cases err with
      | none =>
        simp only at h
        cases hb : (untypedLoop addr l).2 with
        | true => rw [hb] at h; simp at h
        | false => rw [hb] at h; simp at h; exact ⟨rfl, h⟩
      | some e =>
        cases e with
        | restricted =>
          simp only at h
          cases hb : (untypedLoop addr l).2 with
          | true => rw [hb] at h; simp at h
          | false => rw [hb] at h; simp at h; exact ⟨rfl, h⟩
        | parse => simp at h
        | ambiguous => simp at h
        | read => simp at h
    obtain ⟨hb, rfl, rfl⟩ := key
    refine ⟨hcache, by simp [untypedLoop], ?_⟩
    intro k i hi
    refine ⟨_, untypedLoop_get addr l k i hi, ?_, ?_⟩
    · intro hno
      unfold untypedOne
      cases hk : i.ksym with
      | none => rfl
      | some m => simp [hno m hk]
    · intro m hm hv
      have hw := (untypedLoop_ok addr l).1 hb i (List.mem_of_getElem? hi) m hm hv
      refine ⟨addr m.name, ?_, hsound m.name, hw⟩
      unfold untypedOne
      rw [hm]
      simp only [hv, if_true]
      by_cases h0 : addr m.name = 0
      · rw [hw h0]; simp
      · rw [if_neg (by simp; exact fun h => absurd h h0)]; rfl

/-- **C61 (untyped).** When none of the symbols is ambiguous or hidden, resolution fails exactly if a
required symbol is not in the kernel's table. -/
theorem untyped_fails_iff (t : Table) (lines : List Bytes) (ht : tableOf lines = some t) (cache : SymMap)
    (hc : CacheOk t cache) (l : List LIns)
    (hres : ∀ i ∈ l, ∀ m, i.ksym = some m → m.isVoid = true → Resolvable t m.name) :
    (∃ e, (applyUntyped cache (some ⟨lines, false⟩) l).1 = some e) ↔
      ∃ i ∈ l, ∃ m, i.ksym = some m ∧ m.isVoid = true ∧ m.weak = false ∧ addrs t m.name = [] := by
  have hno : ∀ n, Resolvable t n → (address t n = 0 ↔ addrs t n = []) := by
    intro n hr
    rcases hr with h | ⟨a, ha, h0⟩
    · simp [address, h]
    · simp [address, ha]; exact h0
  unfold applyUntyped
  by_cases hnil : untypedNames l = []
  · rw [if_pos hnil]
    constructor
    · rintro ⟨e, he⟩; cases he
    · rintro ⟨i, hi, m, hm, hv, _⟩
      have := (mem_untypedNames l m.name).2 ⟨i, hi, m, hm, hv, rfl⟩
      rw [hnil] at this; cases this
  · rw [if_neg hnil]
    have hall : ∀ n ∈ untypedNames l, Resolvable t n := by
      intro n hn
      obtain ⟨i, hi, m, hm, hv, rfl⟩ := (mem_untypedNames l n).1 hn
      exact hres i hi m hm hv
    obtain ⟨h1, h2, _⟩ := assign_exact t lines ht cache hc (untypedNames l) (fun _ => 0)
    have hok := h1.2 hall
    have hvals := h2 hok
    generalize assign cache (some ⟨lines, false⟩) (untypedNames l) (fun _ => 0) = r at hok hvals
    obtain ⟨err, c2, addr⟩ := r
    simp only at hok hvals
    subst hok
    simp only
    have hiff : (untypedLoop addr l).2 = true ↔
        ∃ i ∈ l, ∃ m, i.ksym = some m ∧ m.isVoid = true ∧ m.weak = false ∧ addrs t m.name = [] := by
      constructor
      · intro hb
        apply Classical.byContradiction
        intro hcon
        have : (untypedLoop addr l).2 = false := by
          rw [untypedLoop_ok]
          intro i hi m hm hv h0
          cases hw : m.weak with
          | true => rfl
          | false =>
            exfalso; apply hcon
            have hmem := (mem_untypedNames l m.name).2 ⟨i, hi, m, hm, hv, rfl⟩
            rw [hvals, if_pos hmem] at h0
            exact ⟨i, hi, m, hm, hv, hw, (hno _ (hall _ hmem)).1 h0⟩
        rw [this] at hb; cases hb
      · rintro ⟨i, hi, m, hm, hv, hw, hempty⟩
        cases hb : (untypedLoop addr l).2 with
        | true => rfl
        | false =>
          have hmem := (mem_untypedNames l m.name).2 ⟨i, hi, m, hm, hv, rfl⟩
          have := (untypedLoop_ok addr l).1 hb i hi m hm hv (by
            rw [hvals, if_pos hmem]; exact (hno _ (hall _ hmem)).2 hempty)
          rw [hw] at this; cases this
    rw [← hiff]
    cases (untypedLoop addr l).2 <;> simp

/-! ## typed ksyms: the BTF id of the variable -/

/-- What a resolved reference looks like to the kernel: a 64 bit load with source register 3, the type
id in the low half and the file descriptor of the module (0 for the kernel itself) in the high half. -/
def LoadsBTF (i j : LIns) (id : BitVec 32) (fd : Nat) : Prop :=
  i.p.ins.op = 0x18#32 ∧
    j = { i with p := { i.p with ins := { i.p.ins with src := 3#8, cons := j.p.ins.cons } } } ∧
    j.p.ins.cons.setWidth 32 = id ∧ (fd < 2 ^ 32 → (j.p.ins.cons >>> 32).toNat = fd)

theorem associateBTFID_loads (i j : LIns) (id : BitVec 32) (fd : Nat) (h : associateBTFID i id fd = some j) :
    LoadsBTF i j id fd := by
  unfold associateBTFID at h
  by_cases hop : i.p.ins.op.isDWordLoad = true
  · rw [if_neg (by simp [hop])] at h
    injection h with h
    subst h
    unfold LoadsBTF
    refine ⟨by simpa [OpCode.isDWordLoad] using hop, rfl, ?_, ?_⟩
    · simp only
      apply BitVec.eq_of_getLsbD_eq
      intro k hk
      rw [BitVec.getLsbD_setWidth, BitVec.getLsbD_or, BitVec.getLsbD_setWidth, BitVec.getLsbD_shiftLeft]
      simp [hk]; omega
    · intro hfd
      have : ((id.setWidth 64 ||| BitVec.ofNat 64 fd <<< 32) >>> 32) = BitVec.ofNat 64 fd := by
        apply BitVec.eq_of_getLsbD_eq
        intro k hk
        rw [BitVec.getLsbD_ushiftRight, BitVec.getLsbD_or, BitVec.getLsbD_setWidth, BitVec.getLsbD_shiftLeft]
        by_cases h32 : k < 32
        · simp [hk]
          omega
        · have h1 : id.getLsbD (32 + k) = false := BitVec.getLsbD_of_ge _ _ (by omega)
          have h2 : (BitVec.ofNat 64 fd).getLsbD k = false := by
            rw [BitVec.getLsbD_ofNat, Nat.testBit_lt_two_pow (Nat.lt_of_lt_of_le hfd (Nat.pow_le_pow_right (by omega) (by omega)))]
            simp
          simp only [h1, h2, Bool.and_false, Bool.false_or]
          simp; omega
      show ((id.setWidth 64 ||| BitVec.ofNat 64 fd <<< 32) >>> 32).toNat = fd
      rw [this, BitVec.toNat_ofNat]
      omega
  · rw [if_pos (by simp [hop])] at h; cases h

/-- The kernel knows variable `n` under `id`, in the module with the given file descriptor (0: vmlinux). -/
def Answer (o : Oracle) (n : Bytes) (id : BitVec 32) (module : Option Nat) : Prop :=
  ∃ k c, o k n = .found (some id) module c

/-- What the loop maintains. -/
structure TInv (o : Oracle) (s : TState) : Prop where
  owned : s.acquired = s.modules
  known : ∀ n id fd, (n, (id, fd)) ∈ s.symbols → ∃ module, Answer o n id module ∧ fd = module.getD 0 ∧
    ∀ x, module = some x → x ∈ s.modules

theorem lookup_mem' {β : Type} (l : List (Bytes × β)) (n : Bytes) (b : β) (h : l.lookup n = some b) : (n, b) ∈ l := by
  induction l with
  | nil => simp at h
  | cons e r ih =>
    obtain ⟨k, v⟩ := e
    rw [List.lookup_cons] at h
    by_cases hk : n = k
    · subst hk; simp at h; subst h; exact List.mem_cons_self
    · have hb : (n == k) = false := by simpa using hk
      rw [hb] at h; exact List.mem_cons_of_mem _ (ih h)

theorem addHandle_spec (hs : List Nat) (m : Option Nat) (hs' : List Nat) (idx : Nat) (h : addHandle hs m = some (hs', idx)) :
    hs' = hs ++ m.toList := by
  unfold addHandle at h
  cases m with
  | none => simp at h; simp [h.1]
  | some x =>
    simp only at h
    by_cases hl : hs.length = maxModules
    · rw [if_pos hl] at h; cases h
    · rw [if_neg hl] at h; simp at h; simp [h.1]

/-- What one successful fixup of a typed symbol may do. -/
def Typed (o : Oracle) (modules : List Nat) (m : KsymMeta) (i j : LIns) : Prop :=
  (j = i ∧ m.weak = true ∧ ∃ k, o k m.varName = .notFound) ∨
  ∃ id module, Answer o m.varName id module ∧ LoadsBTF i j id (module.getD 0) ∧ ∀ x, module = some x → x ∈ modules

theorem Typed.mono {o : Oracle} {ms ms' : List Nat} {m : KsymMeta} {i j : LIns} (hsub : ∀ x ∈ ms, x ∈ ms')
    (h : Typed o ms m i j) : Typed o ms' m i j := by
  rcases h with h | ⟨id, module, h1, h2, h3⟩
  · exact Or.inl h
  · exact Or.inr ⟨id, module, h1, h2, fun x hx => hsub x (h3 x hx)⟩

theorem typedOne_ok (o : Oracle) (s s' : TState) (m : KsymMeta) (i j : LIns) (hI : TInv o s)
    (h : typedOne o s m i = .ok (s', j)) :
    TInv o s' ∧ (∀ x ∈ s.modules, x ∈ s'.modules) ∧ Typed o s'.modules m i j := by
  unfold typedOne at h
  cases hl : s.symbols.lookup m.varName with
  | some v =>
    obtain ⟨id, fd⟩ := v
    rw [hl] at h
    simp only at h
    cases ha : associateBTFID i id fd with
    | none => rw [ha] at h; cases h
    | some j' =>
      rw [ha] at h
      simp only [Except.ok.injEq, Prod.mk.injEq] at h
      obtain ⟨rfl, rfl⟩ := h
      refine ⟨hI, fun x hx => hx, Or.inr ?_⟩
      obtain ⟨module, h1, h2, h3⟩ := hI.known _ id fd (lookup_mem' _ _ _ hl)
      exact ⟨id, module, h1, h2 ▸ associateBTFID_loads i j' id fd ha, h3⟩
  | none =>
    rw [hl] at h
    simp only at h
    cases ho : o s.calls m.varName with
    | notFound =>
      rw [ho] at h
      simp only at h
      by_cases hw : m.weak = true
      · rw [if_pos hw] at h
        simp only [Except.ok.injEq, Prod.mk.injEq] at h
        obtain ⟨rfl, rfl⟩ := h
        exact ⟨⟨hI.owned, hI.known⟩, fun x hx => hx, Or.inl ⟨rfl, hw, _, ho⟩⟩
      · rw [if_neg hw] at h; cases h
    | failed => rw [ho] at h; cases h
    | found id module c =>
      rw [ho] at h
      simp only at h
      cases hadd : addHandle s.modules module with
      | none => rw [hadd] at h; cases h
      | some r =>
        obtain ⟨ms, idx⟩ := r
        have hms := addHandle_spec _ _ _ _ hadd
        rw [hadd] at h
        simp only at h
        cases id with
        | none => cases h
        | some id =>
          simp only at h
          cases ha : associateBTFID i id (module.getD 0) with
          | none => rw [ha] at h; cases h
          | some j' =>
            rw [ha] at h
            simp only [Except.ok.injEq, Prod.mk.injEq] at h
            obtain ⟨rfl, rfl⟩ := h
            have hin : ∀ x, module = some x → x ∈ ms := by
              rintro x rfl; rw [hms]; simp
            refine ⟨⟨?_, ?_⟩, ?_, Or.inr ⟨id, module, ⟨_, c, ho⟩, associateBTFID_loads i j' id _ ha, hin⟩⟩
            · simp only; rw [hms, hI.owned]
            · intro n id' fd hmem
              simp only at hmem ⊢
              rcases List.mem_cons.1 hmem with he | hmem
              · simp only [Prod.mk.injEq] at he
                obtain ⟨rfl, rfl, rfl⟩ := he
                exact ⟨module, ⟨_, c, ho⟩, rfl, hin⟩
              · obtain ⟨mo, h1, h2, h3⟩ := hI.known n id' fd hmem
                exact ⟨mo, h1, h2, fun x hx => by rw [hms]; exact List.mem_append_left _ (h3 x hx)⟩
            · intro x hx; simp only; rw [hms]; exact List.mem_append_left _ hx

theorem typedOne_err (o : Oracle) (s s' : TState) (m : KsymMeta) (i : LIns) (e : FixErr) (hI : TInv o s)
    (h : typedOne o s m i = .error (e, s')) : e ≠ .tooMany → s'.acquired = s'.modules := by
  intro he
  unfold typedOne at h
  have hown := hI.owned
  cases hl : s.symbols.lookup m.varName with
  | some v =>
    obtain ⟨id, fd⟩ := v
    rw [hl] at h
    simp only at h
    cases ha : associateBTFID i id fd with
    | none => rw [ha] at h; simp at h; obtain ⟨_, rfl⟩ := h; exact hown
    | some j' => rw [ha] at h; cases h
  | none =>
    rw [hl] at h
    simp only at h
    cases ho : o s.calls m.varName with
    | notFound =>
      rw [ho] at h
      simp only at h
      by_cases hw : m.weak = true
      · rw [if_pos hw] at h; cases h
      · rw [if_neg hw] at h; simp at h; obtain ⟨_, rfl⟩ := h; exact hown
    | failed => rw [ho] at h; simp at h; obtain ⟨_, rfl⟩ := h; exact hown
    | found id module c =>
      rw [ho] at h
      simp only at h
      cases hadd : addHandle s.modules module with
      | none => rw [hadd] at h; simp at h; exact absurd h.1.symm he
      | some r =>
        obtain ⟨ms, idx⟩ := r
        have hms := addHandle_spec _ _ _ _ hadd
        rw [hadd] at h
        simp only at h
        cases id with
        | none => simp at h; obtain ⟨_, rfl⟩ := h; simp only; rw [hms, hown]
        | some id =>
          simp only at h
          cases ha : associateBTFID i id (module.getD 0) with
          | none => rw [ha] at h; simp at h; obtain ⟨_, rfl⟩ := h; simp only; rw [hms, hown]
          | some j' => rw [ha] at h; cases h

/-- What may happen to an instruction: only typed references change. -/
def TypedAt (o : Oracle) (modules : List Nat) (i j : LIns) : Prop :=
  ((∀ m, i.ksym = some m → m.isVoid = true) → j = i) ∧
  ∀ m, i.ksym = some m → m.isVoid = false → Typed o modules m i j

theorem typedLoop_ok (o : Oracle) (l : List LIns) : ∀ (s s' : TState) (l' : List LIns), TInv o s →
    typedLoop o s l = .ok (s', l') →
    TInv o s' ∧ (∀ x ∈ s.modules, x ∈ s'.modules) ∧ l'.length = l.length ∧
      ∀ (k : Nat) (i : LIns), l[k]? = some i → ∃ j : LIns, l'[k]? = some j ∧ TypedAt o s'.modules i j := by
  induction l with
  | nil =>
    intro s s' l' hI h
    simp only [typedLoop, Except.ok.injEq, Prod.mk.injEq] at h
    obtain ⟨rfl, rfl⟩ := h
    exact ⟨hI, fun x hx => hx, rfl, by intro k i hi; simp at hi⟩
  | cons i r ih =>
    intro s s' l' hI h
    have skip : (∀ m, i.ksym = some m → m.isVoid = true) →
        (match typedLoop o s r with
          | .error e => (.error e : Except (FixErr × TState) (TState × List LIns))
          | .ok (s, r) => .ok (s, i :: r)) = .ok (s', l') →
        TInv o s' ∧ (∀ x ∈ s.modules, x ∈ s'.modules) ∧ l'.length = (i :: r).length ∧
          ∀ (k : Nat) (i' : LIns), (i :: r)[k]? = some i' → ∃ j : LIns, l'[k]? = some j ∧ TypedAt o s'.modules i' j := by
      intro hno h
      cases hr : typedLoop o s r with
      | error e => rw [hr] at h; cases h
      | ok v =>
        obtain ⟨s2, r2⟩ := v
        rw [hr] at h
        simp only [Except.ok.injEq, Prod.mk.injEq] at h
        obtain ⟨rfl, rfl⟩ := h
        obtain ⟨h1, h2, h3, h4⟩ := ih s s2 r2 hI hr
        refine ⟨h1, h2, by simp [h3], ?_⟩
        intro k i' hi'
        cases k with
        | zero =>
          simp only [List.getElem?_cons_zero, Option.some.injEq] at hi'
          subst hi'
          refine ⟨i, rfl, fun _ => rfl, ?_⟩
          intro m hm hv
          have := hno m hm
          rw [hv] at this; cases this
        | succ k =>
          simp only [List.getElem?_cons_succ] at hi' ⊢
          exact h4 k i' hi'
    unfold typedLoop at h
    cases hk : i.ksym with
    | none =>
      rw [hk] at h
      exact skip (by intro m hm; rw [hk] at hm; cases hm) h
    | some m =>
      rw [hk] at h
      simp only at h
      by_cases hv : m.isVoid = true
      · rw [if_pos hv] at h
        exact skip (by intro m' hm; rw [hk] at hm; injection hm with hm; exact hm ▸ hv) h
      · rw [if_neg hv] at h
        cases ho : typedOne o s m i with
        | error e => rw [ho] at h; cases h
        | ok v =>
          obtain ⟨s1, j⟩ := v
          rw [ho] at h
          simp only at h
          obtain ⟨g1, g2, g3⟩ := typedOne_ok o s s1 m i j hI ho
          cases hr : typedLoop o s1 r with
          | error e => rw [hr] at h; cases h
          | ok v =>
            obtain ⟨s2, r2⟩ := v
            rw [hr] at h
            simp only [Except.ok.injEq, Prod.mk.injEq] at h
            obtain ⟨rfl, rfl⟩ := h
            obtain ⟨h1, h2, h3, h4⟩ := ih s1 s2 r2 g1 hr
            refine ⟨h1, fun x hx => h2 x (g2 x hx), by simp [h3], ?_⟩
            intro k i' hi'
            cases k with
            | zero =>
              simp only [List.getElem?_cons_zero, Option.some.injEq] at hi'
              subst hi'
              refine ⟨j, rfl, ?_, ?_⟩
              · intro hno; exact absurd (hno m hk) hv
              · intro m' hm' _
                rw [hk] at hm'; injection hm' with hm'; subst hm'
                exact g3.mono h2
            | succ k =>
              simp only [List.getElem?_cons_succ] at hi' ⊢
              exact h4 k i' hi'

theorem typedLoop_err (o : Oracle) (l : List LIns) : ∀ (s s' : TState) (e : FixErr), TInv o s →
    typedLoop o s l = .error (e, s') → e ≠ .tooMany → s'.acquired = s'.modules := by
  induction l with
  | nil => intro s s' e _ h; cases h
  | cons i r ih =>
    intro s s' e hI h he
    have skip : (match typedLoop o s r with
          | .error e => (.error e : Except (FixErr × TState) (TState × List LIns))
          | .ok (s, r) => .ok (s, i :: r)) = .error (e, s') → s'.acquired = s'.modules := by
      intro h
      cases hr : typedLoop o s r with
      | error v => rw [hr] at h; simp at h; subst h; exact ih s s' e hI hr he
      | ok v => rw [hr] at h; cases h
    unfold typedLoop at h
    cases hk : i.ksym with
    | none => rw [hk] at h; exact skip h
    | some m =>
      rw [hk] at h
      simp only at h
      by_cases hv : m.isVoid = true
      · rw [if_pos hv] at h; exact skip h
      · rw [if_neg hv] at h
        cases ho : typedOne o s m i with
        | error v => rw [ho] at h; simp at h; subst h; exact typedOne_err o s s' m i e hI ho he
        | ok v =>
          obtain ⟨s1, j⟩ := v
          rw [ho] at h
          simp only at h
          cases hr : typedLoop o s1 r with
          | error v => rw [hr] at h; simp at h; subst h; exact ih s1 s' e (typedOne_ok o s s1 m i j hI ho).1 hr he
          | ok v => rw [hr] at h; cases h

/-- **C61 (typed).** Every successful resolution, whatever the kernel answers: a reference to a typed
kernel variable becomes a load of the BTF id the kernel gave for that variable, together with the file
descriptor of the module it is in, and that module's handle is among the ones kept open for the load.
Only a weak reference to a variable that was not found is left as it is. Other instructions are not
touched. No handle that was acquired is lost. -/
theorem typed_sound (o : Oracle) (l : List LIns) (modules : List Nat) (l' : List LIns) (hs : Handles)
    (h : applyTyped o l = (.ok (modules, l'), hs)) :
    hs.acquired = modules ∧ hs.closed = [] ∧ l'.length = l.length ∧
    ∀ (k : Nat) (i : LIns), l[k]? = some i → ∃ j : LIns, l'[k]? = some j ∧ TypedAt o modules i j := by
  unfold applyTyped at h
  have hI : TInv o {} := ⟨rfl, by intro n id fd hm; cases hm⟩
  cases hl : typedLoop o {} l with
  | error v => rw [hl] at h; simp at h
  | ok v =>
    obtain ⟨s, l2⟩ := v
    rw [hl] at h
    simp only [Prod.mk.injEq, Except.ok.injEq] at h
    obtain ⟨⟨rfl, rfl⟩, rfl⟩ := h
    obtain ⟨h1, _, h3, h4⟩ := typedLoop_ok o l _ _ _ hI hl
    exact ⟨h1.owned, rfl, h3, h4⟩

/-- **C61 (typed).** When resolution fails, every module handle acquired on the way is closed, except
for the one that does not fit when a program needs more than 32767 of them. -/
theorem typed_error_closes_partial (o : Oracle) (l : List LIns) (e : FixErr) (hs : Handles)
    (h : applyTyped o l = (.error e, hs)) (he : e ≠ .tooMany) : hs.closed = hs.acquired := by
  unfold applyTyped at h
  have hI : TInv o {} := ⟨rfl, by intro n id fd hm; cases hm⟩
  cases hl : typedLoop o {} l with
  | ok v => rw [hl] at h; simp at h
  | error v =>
    obtain ⟨e', s⟩ := v
    rw [hl] at h
    simp only [Prod.mk.injEq, Except.error.injEq] at h
    obtain ⟨rfl, rfl⟩ := h
    exact (typedLoop_err o l _ _ _ hI hl he).symm

end Ebpf.LinkerFix
