import Verif.Model.Kallsyms
import Verif.Spec.Kallsyms
import Verif.Props.Kconfig
/-! # C44: kernel symbol lookup -/
namespace Ebpf.Kallsyms
open Ebpf.Kconfig (cut cut_some)
open Ebpf.Spec.Kallsyms

/-- The table a file denotes, if all lines parse. -/
def tableOf : List Bytes → Option Table
  | [] => some []
  | l :: ls =>
    if l = [] then tableOf ls
    else match parseSymbol l, tableOf ls with
      | some s, some t => some ((s.addr, s.name) :: t)
      | _, _ => none

/-- Loop invariant, stated for an arbitrary intermediate map. -/
theorem assignLoop_ok (ls : List Bytes) : ∀ (t : Table) (m : SymMap), tableOf ls = some t →
    (∀ m', assignLoop ls m = .ok m' →
      ∀ n, match m n with
        | none => m' n = none
        | some a => if a = 0 then Resolvable t n ∧ m' n = some (address t n)
                    else addrs t n = [] ∧ m' n = some a) ∧
    ((∃ e, assignLoop ls m = .error e) →
      ∃ n a, m n = some a ∧ if a = 0 then ¬ Resolvable t n else addrs t n ≠ []) := by
  induction ls with
  | nil =>
    intro t m ht
    simp only [tableOf, Option.some.injEq] at ht; subst ht
    refine ⟨?_, ?_⟩
    · intro m' h n
      simp only [assignLoop, Except.ok.injEq] at h; subst h
      cases hn : m n with
      | none => rfl
      | some a =>
        dsimp only
        split
        · next h0 => subst h0; exact ⟨Or.inl rfl, rfl⟩
        · exact ⟨rfl, rfl⟩
    · rintro ⟨e, h⟩; cases h
  | cons l ls ih =>
    intro t m ht
    unfold tableOf at ht
    unfold assignLoop
    split at ht
    · next hl => simp only [hl, if_true]; exact ih t m ht
    next hl =>
    simp only [hl, if_false]
    split at ht
    · next s t0 hs ht0 =>
      injection ht with ht; subst ht
      rw [hs]; dsimp only
      have hadd : ∀ n, addrs ((s.addr, s.name) :: t0) n = (if s.name = n then [s.addr] else []) ++ addrs t0 n := by
        intro n; unfold addrs; rw [List.filter_cons]
        by_cases hn : s.name = n <;> simp [hn]
      by_cases hex : (m s.name).getD 0 ≠ 0
      · rw [if_pos hex]
        refine ⟨fun m' h => (by cases h), fun _ => ?_⟩
        cases hm : m s.name with
        | none => rw [hm] at hex; exact absurd rfl hex
        | some a =>
          rw [hm] at hex
          refine ⟨s.name, a, hm, ?_⟩
          rw [if_neg (by simpa using hex), hadd]; simp
      · rw [if_neg hex]
        cases hm : m s.name with
        | none =>
          dsimp only
          obtain ⟨ih1, ih2⟩ := ih t0 m ht0
          refine ⟨?_, ?_⟩
          · intro m' h n
            have := ih1 m' h n
            by_cases hn : s.name = n
            · subst hn; rw [hm] at this ⊢; exact this
            · have ha : addrs ((s.addr, s.name) :: t0) n = addrs t0 n := by rw [hadd, if_neg hn]; rfl
              simp only [Resolvable, address, ha] at this ⊢; exact this
          · intro h
            obtain ⟨n, a, hna, hc⟩ := ih2 h
            refine ⟨n, a, hna, ?_⟩
            have hn : s.name ≠ n := by rintro rfl; rw [hm] at hna; cases hna
            have ha : addrs ((s.addr, s.name) :: t0) n = addrs t0 n := by rw [hadd, if_neg hn]; rfl
            simp only [Resolvable, ha] at hc ⊢; exact hc
        | some a =>
          have ha0 : a = 0 := by rw [hm] at hex; simpa using hex
          subst ha0
          dsimp only
          by_cases hz : s.addr = 0
          · rw [if_pos hz]
            refine ⟨fun m' h => (by cases h), fun _ => ⟨s.name, 0, hm, ?_⟩⟩
            rw [if_pos rfl]
            unfold Resolvable
            rw [hadd, if_pos rfl]
            rintro (h | ⟨b, h, hb⟩)
            · simp at h
            · simp at h; exact hb (h.1 ▸ hz)
          · rw [if_neg hz]
            obtain ⟨ih1, ih2⟩ := ih t0 (m.set s.name s.addr) ht0
            refine ⟨?_, ?_⟩
            · intro m' h n
              have := ih1 m' h n
              by_cases hn : s.name = n
              · subst hn
                simp only [SymMap.set, if_true, if_neg hz] at this
                rw [hm]; dsimp only; rw [if_pos rfl]
                unfold Resolvable address
                rw [hadd, if_pos rfl, this.1]
                exact ⟨Or.inr ⟨s.addr, rfl, hz⟩, this.2⟩
              · have ha : addrs ((s.addr, s.name) :: t0) n = addrs t0 n := by rw [hadd, if_neg hn]; rfl
                have hn' : ¬ n = s.name := fun h => hn h.symm
                simp only [SymMap.set, if_neg hn'] at this
                simp only [Resolvable, address, ha] at this ⊢; exact this
            · intro h
              obtain ⟨n, a, hna, hc⟩ := ih2 h
              by_cases hn : s.name = n
              · subst hn
                simp only [SymMap.set, if_true, Option.some.injEq] at hna
                subst hna
                rw [if_neg hz] at hc
                refine ⟨s.name, 0, hm, ?_⟩
                rw [if_pos rfl]
                unfold Resolvable
                rw [hadd, if_pos rfl]
                rintro (h | ⟨b, h, _⟩)
                · simp at h
                · simp at h; exact hc h.2
              · have ha : addrs ((s.addr, s.name) :: t0) n = addrs t0 n := by rw [hadd, if_neg hn]; rfl
                have hn' : ¬ n = s.name := fun h => hn h.symm
                simp only [SymMap.set, if_neg hn'] at hna
                refine ⟨n, a, hna, ?_⟩
                simp only [Resolvable, ha] at hc ⊢; exact hc
    · cases ht

/-- The cache only contains answers of the table. -/
def CacheOk (t : Table) (c : SymMap) : Prop := ∀ n a, c n = some a → Resolvable t n ∧ a = address t n

/-- One lookup against a readable symbol table. -/
theorem assign_exact (t : Table) (lines : List Bytes) (ht : tableOf lines = some t) (cache : SymMap)
    (hc : CacheOk t cache) (names : List Bytes) (vals : Bytes → BitVec 64) :
    ((assign cache (some ⟨lines, false⟩) names vals).1 = none ↔ ∀ n ∈ names, Resolvable t n) ∧
    ((assign cache (some ⟨lines, false⟩) names vals).1 = none →
      ∀ n, (assign cache (some ⟨lines, false⟩) names vals).2.2 n = if n ∈ names then address t n else vals n) ∧
    CacheOk t (assign cache (some ⟨lines, false⟩) names vals).2.1 := by
  unfold assign
  by_cases hnil : names = []
  · subst hnil; simp; exact hc
  rw [if_neg hnil]
  simp only
  generalize hreq : names.filter (fun n => (cache n).isNone) = request
  have hmem : ∀ n, n ∈ request ↔ n ∈ names ∧ cache n = none := by
    intro n; rw [← hreq, List.mem_filter]; simp
  by_cases hr : request = []
  · rw [if_pos hr]
    have hall : ∀ n ∈ names, ∃ a, cache n = some a := by
      intro n hn
      cases h : cache n with
      | some a => exact ⟨a, rfl⟩
      | none => have := (hmem n).2 ⟨hn, h⟩; rw [hr] at this; cases this
    refine ⟨⟨fun _ n hn => ?_, fun _ => rfl⟩, fun _ n => ?_, hc⟩
    · obtain ⟨a, ha⟩ := hall n hn; exact (hc n a ha).1
    · by_cases hn : n ∈ names
      · obtain ⟨a, ha⟩ := hall n hn
        simp [hn, ha, (hc n a ha).2]
      · simp [hn]
  rw [if_neg hr]
  unfold assignAddresses
  rw [if_neg hr]
  obtain ⟨h1, h2⟩ := assignLoop_ok lines t (fun n => if n ∈ request then some 0 else none) ht
  dsimp only at h1 h2 ⊢
  cases hl : assignLoop lines (fun n => if n ∈ request then some 0 else none) with
  | error e =>
    dsimp only
    obtain ⟨n, a, hna, hbad⟩ := h2 ⟨e, hl⟩
    by_cases hn : n ∈ request
    · rw [if_pos hn, Option.some.injEq] at hna
      subst hna
      rw [if_pos rfl] at hbad
      exact ⟨⟨fun h => (nomatch h), fun h => absurd (h n ((hmem n).1 hn).1) hbad⟩, fun h => (nomatch h), hc⟩
    · rw [if_neg hn] at hna; cases hna
  | ok m' =>
    have h1' := h1 m' hl
    have hreq' : ∀ n ∈ request, Resolvable t n ∧ m' n = some (address t n) := by
      intro n hn
      have := h1' n
      rw [if_pos hn] at this
      simpa using this
    simp only [Bool.false_eq_true, if_false]
    refine ⟨⟨fun _ n hn => ?_, fun _ => trivial⟩, fun _ n => ?_, ?_⟩
    · cases hcn : cache n with
      | none => exact (hreq' n ((hmem n).2 ⟨hn, hcn⟩)).1
      | some a => exact (hc n a hcn).1
    · by_cases hr' : n ∈ request
      · have hn := ((hmem n).1 hr').1
        simp [hr', hn, (hreq' n hr').2]
      · by_cases hn : n ∈ names
        · cases hcn : cache n with
          | none => exact absurd ((hmem n).2 ⟨hn, hcn⟩) hr'
          | some a => simp [hr', hn, (hc n a hcn).2]
        · simp [hr', hn]
    · intro n a ha
      by_cases hr' : n ∈ request
      · simp only [hr', if_true, (hreq' n hr').2, Option.getD_some, Option.some.injEq] at ha
        exact ⟨(hreq' n hr').1, ha.symm⟩
      · simp only [hr', if_false] at ha; exact hc n a ha

/-- A history of lookups: the error (if any) and the values after each of them. -/
def history (f : Option File) : SymMap → List (List Bytes × (Bytes → BitVec 64)) →
    List (Option Err × (Bytes → BitVec 64))
  | _, [] => []
  | c, (names, vals) :: rest =>
    ((assign c f names vals).1, (assign c f names vals).2.2) :: history f (assign c f names vals).2.1 rest

/-- **C44**. For a symbol table whose lines parse and every history of lookups starting with an empty
cache: a lookup succeeds exactly if every requested symbol occurs at most once and not at address
zero; then each requested symbol gets the address of its line (0 if it has none) and nothing else is
changed. In particular earlier lookups never influence later ones. -/
theorem lookup_history_exact (t : Table) (lines : List Bytes) (ht : tableOf lines = some t)
    (calls : List (List Bytes × (Bytes → BitVec 64))) (i : Nat) (names : List Bytes) (vals : Bytes → BitVec 64)
    (res : Option Err) (vals' : Bytes → BitVec 64)
    (hcall : calls[i]? = some (names, vals))
    (hres : (history (some ⟨lines, false⟩) (fun _ => none) calls)[i]? = some (res, vals')) :
    (res = none ↔ ∀ n ∈ names, Resolvable t n) ∧
    (res = none → ∀ n, vals' n = if n ∈ names then address t n else vals n) := by
  have gen : ∀ (calls : List (List Bytes × (Bytes → BitVec 64))) (c : SymMap) (i : Nat), CacheOk t c →
      calls[i]? = some (names, vals) →
      (history (some ⟨lines, false⟩) c calls)[i]? = some (res, vals') →
      (res = none ↔ ∀ n ∈ names, Resolvable t n) ∧
      (res = none → ∀ n, vals' n = if n ∈ names then address t n else vals n) := by
    intro calls
    induction calls with
    | nil => intro c i _ h; simp at h
    | cons x rest ih =>
      obtain ⟨ns, vs⟩ := x
      intro c i hc h1 h2
      have hstep := assign_exact t lines ht c hc ns vs
      cases i with
      | zero =>
        simp only [List.getElem?_cons_zero, Option.some.injEq, Prod.mk.injEq] at h1
        obtain ⟨rfl, rfl⟩ := h1
        simp only [history, List.getElem?_cons_zero, Option.some.injEq, Prod.mk.injEq] at h2
        obtain ⟨rfl, rfl⟩ := h2
        exact ⟨hstep.1, hstep.2.1⟩
      | succ i =>
        simp only [List.getElem?_cons_succ] at h1
        simp only [history, List.getElem?_cons_succ] at h2
        exact ih _ i hstep.2.2 h1 h2
  exact gen calls _ i (by intro n a h; cases h) hcall hres

/-! ## Parsing what the kernel prints -/

theorem hexValue_append (a b : Bytes) : ∀ acc, hexValue (a ++ b) acc = (hexValue a acc).bind (hexValue b) := by
  induction a with
  | nil => intro acc; rfl
  | cons x xs ih =>
    intro acc
    simp only [List.cons_append, hexValue]
    cases hexDigit x with
    | none => rfl
    | some d => exact ih _

theorem hexDigit_digit (d : Nat) (h : d < 16) : hexDigit (digit d) = some d := by
  have : ∀ d : Fin 16, hexDigit (digit d.1) = some d.1 := by decide
  exact this ⟨d, h⟩

theorem hexValue_hex (k : Nat) : ∀ (n acc : Nat), hexValue (hex k n) acc = some (acc * 16 ^ k + n % 16 ^ k) := by
  induction k with
  | zero => intro n acc; simp [hex, hexValue, Nat.mod_one]
  | succ k ih =>
    intro n acc
    rw [hex, hexValue_append, ih]
    simp only [Option.bind_some, hexValue]
    rw [hexDigit_digit _ (Nat.mod_lt _ (by omega))]
    simp only [Option.some.injEq]
    rw [Nat.pow_succ, Nat.add_mul, Nat.mul_assoc, Nat.add_assoc]
    congr 1
    rw [Nat.mul_comm (16 ^ k) 16, Nat.mod_mul, Nat.mul_comm 16]; omega

theorem hex_length (k : Nat) : ∀ n, (hex k n).length = k := by
  induction k with
  | zero => intro n; rfl
  | succ k ih => intro n; simp [hex, ih]

theorem digit_notspace (d : Nat) (h : d < 16) : isSpace (digit d) = false := by
  have : ∀ d : Fin 16, isSpace (digit d.1) = false := by decide
  exact this ⟨d, h⟩

theorem hex_nospace (k : Nat) : ∀ n, ∀ b ∈ hex k n, isSpace b = false := by
  induction k with
  | zero => intro n b hb; cases hb
  | succ k ih =>
    intro n b hb
    rw [hex, List.mem_append] at hb
    rcases hb with hb | hb
    · exact ih _ b hb
    · rw [List.mem_singleton] at hb; subst hb; exact digit_notspace _ (Nat.mod_lt _ (by omega))

theorem trimSpace_id (w : Bytes) (h : w ≠ []) (h1 : ∀ b, w.head? = some b → isSpace b = false)
    (h2 : ∀ b, w.getLast? = some b → isSpace b = false) : trimSpace w = w := by
  unfold trimSpace
  have e1 : w.dropWhile isSpace = w := by
    cases w with
    | nil => exact absurd rfl h
    | cons a w => rw [List.dropWhile_cons, if_neg]; simp [h1 a rfl]
  rw [e1]
  have e2 : w.reverse.dropWhile isSpace = w.reverse := by
    cases hr : w.reverse with
    | nil => rfl
    | cons a r =>
      rw [List.dropWhile_cons, if_neg]
      have : w.getLast? = some a := by rw [← List.head?_reverse, hr]; rfl
      simp [h2 a this]
  rw [e2, List.reverse_reverse]

/-- First word of `w sep rest` where `w` has no white space. -/
theorem word_space (w r : Bytes) (hne : w ≠ []) (hw : ∀ b ∈ w, isSpace b = false)
    (hr : ∃ b, (w ++ 0x20#8 :: r).getLast? = some b ∧ isSpace b = false) :
    word (w ++ 0x20#8 :: r) = some (w, r) := by
  unfold word
  have ht : trimSpace (w ++ 0x20#8 :: r) = w ++ 0x20#8 :: r := by
    apply trimSpace_id
    · simp
    · intro b hb
      cases w with
      | nil => exact absurd rfl hne
      | cons a w => simp at hb; subst hb; exact hw _ List.mem_cons_self
    · intro b hb
      obtain ⟨b', h1, h2⟩ := hr
      rw [h1] at hb; injection hb with hb; subst hb; exact h2
  simp only [ht]
  rw [if_neg (by simp)]
  have : cut 0x20#8 (w ++ 0x20#8 :: r) = some (w, r) :=
    (cut_some _ _ _ _).2 ⟨rfl, fun h => by have := hw _ h; simp [isSpace] at this⟩
  rw [this]

theorem cut_none (c : Byte) (s : Bytes) (h : c ∉ s) : cut c s = none := by
  cases hc : cut c s with
  | none => rfl
  | some p =>
    obtain ⟨k, v⟩ := p
    have := ((cut_some c s k v).1 hc).1
    rw [this] at h; simp at h

theorem word_last (w : Bytes) (hne : w ≠ []) (hw : ∀ b ∈ w, isSpace b = false) :
    word w = some (w, []) := by
  unfold word
  have ht : trimSpace w = w := trimSpace_id w hne
    (fun b hb => hw b (List.mem_of_head? hb)) (fun b hb => hw b (List.mem_of_getLast? hb))
  simp only [ht]
  rw [if_neg hne, cut_none _ _ (fun h => by have := hw _ h; simp [isSpace] at this),
    cut_none _ _ (fun h => by have := hw _ h; simp [isSpace] at this)]

theorem word_tab (w m : Bytes) (hne : w ≠ []) (hw : ∀ b ∈ w, isSpace b = false) (hm : m ≠ [])
    (hmw : ∀ b ∈ m, isSpace b = false) :
    word (w ++ 0x09#8 :: m) = some (w, m) := by
  unfold word
  have ht : trimSpace (w ++ 0x09#8 :: m) = w ++ 0x09#8 :: m := by
    apply trimSpace_id
    · simp
    · intro b hb
      cases w with
      | nil => exact absurd rfl hne
      | cons a w => simp at hb; subst hb; exact hw _ List.mem_cons_self
    · intro b hb
      cases m with
      | nil => exact absurd rfl hm
      | cons a m =>
        have : b ∈ a :: m := by
          rw [List.getLast?_append, List.getLast?_cons_cons] at hb
          have h3 : (a :: m).getLast? = some b := by
            cases h4 : (a :: m).getLast? with
            | none => simp at h4
            | some x => rw [h4] at hb; simpa using hb
          exact List.mem_of_getLast? h3
        exact hmw b this
  simp only [ht]
  rw [if_neg (by simp)]
  have h1 : cut 0x20#8 (w ++ 0x09#8 :: m) = none := by
    apply cut_none
    simp only [List.mem_append, List.mem_cons, not_or]
    exact ⟨fun h => by have := hw _ h; simp [isSpace] at this, by decide,
      fun h => by have := hmw _ h; simp [isSpace] at this⟩
  have h2 : cut 0x09#8 (w ++ 0x09#8 :: m) = some (w, m) :=
    (cut_some _ _ _ _).2 ⟨rfl, fun h => by have := hw _ h; simp [isSpace] at this⟩
  rw [h1, h2]

theorem trimBrackets_id (m : Bytes) (hm : ∀ b ∈ m, b ≠ 0x5b ∧ b ≠ 0x5d) :
    trimBrackets ([0x5b#8] ++ m ++ [0x5d#8]) = m := by
  have hd : ∀ (p : Byte → Bool) (l : Bytes) , (∀ b ∈ l, p b = false) → l.dropWhile p = l := by
    intro p l h
    cases l with
    | nil => rfl
    | cons a l => rw [List.dropWhile_cons, if_neg]; simp [h a List.mem_cons_self]
  cases m with
  | nil => decide
  | cons a m =>
    have ha := hm a List.mem_cons_self
    unfold trimBrackets
    have e1 : (([0x5b#8] ++ (a :: m) ++ [0x5d#8]).dropWhile fun b => b == 0x5b || b == 0x5d) = (a :: m) ++ [0x5d#8] := by
      simp only [List.cons_append, List.nil_append]
      rw [List.dropWhile_cons, if_pos (by decide), List.dropWhile_cons, if_neg]
      simpa using ha
    rw [e1, List.reverse_append, List.reverse_singleton, List.singleton_append, List.dropWhile_cons, if_pos (by decide),
      hd _ _ (by intro b hb; have := hm b (List.mem_reverse.1 hb); simpa using this), List.reverse_reverse]

/-- **C44, format**. A line as printed by the kernel parses to its address, name and module, for every
address and all names and modules without white space (and brackets). -/
theorem parse_kernel_line (addr : BitVec 64) (typ : Byte) (name : Bytes) (mod : Option Bytes)
    (ht : isSpace typ = false) (hne : name ≠ []) (hname : ∀ b ∈ name, isSpace b = false)
    (hmod : ∀ m, mod = some m → ∀ b ∈ m, isSpace b = false ∧ b ≠ 0x5b ∧ b ≠ 0x5d) :
    parseSymbol (line addr typ name mod) = some ⟨addr, name, mod.getD []⟩ := by
  have haddr : parseHex64 (hex 16 addr.toNat) = some addr := by
    unfold parseHex64
    have hl := hex_length 16 addr.toNat
    rw [if_neg (by intro h; rw [h] at hl; simp at hl), hexValue_hex]
    have := addr.isLt
    have e : 0 * 16 ^ 16 + addr.toNat % 16 ^ 16 = addr.toNat := by
      rw [Nat.mod_eq_of_lt (by omega)]; omega
    simp only [e]
    rw [if_pos this]; simp
  have hexne : hex 16 addr.toNat ≠ [] := by
    intro h; have := hex_length 16 addr.toNat; rw [h] at this; simp at this
  -- last byte of the tail is not white space
  generalize htail : moduleSuffix mod = tail
  have hline : line addr typ name mod = hex 16 addr.toNat ++ 0x20#8 :: ([typ] ++ 0x20#8 :: (name ++ tail)) := by
    rw [← htail]; simp [line]
  have hlast : ∃ b, (name ++ tail).getLast? = some b ∧ isSpace b = false := by
    rw [← htail]
    cases mod with
    | none =>
      simp only [moduleSuffix, List.append_nil]
      cases hgl : name.getLast? with
      | none => simp at hgl; exact absurd hgl hne
      | some b => exact ⟨b, rfl, hname b (List.mem_of_getLast? hgl)⟩
    | some m =>
      refine ⟨0x5d#8, ?_, by decide⟩
      rw [moduleSuffix, ← List.append_assoc, List.getLast?_append]; rfl
  have hnt : name ++ tail ≠ [] := by simp [hne]
  have lastcons : ∀ (p : Bytes) (c : Byte), (p ++ c :: (name ++ tail)).getLast? = (name ++ tail).getLast? := by
    intro p c
    rw [List.getLast?_append, List.getLast?_cons]
    cases h : (name ++ tail).getLast? with
    | none => rw [List.getLast?_eq_none_iff] at h; exact absurd h hnt
    | some b => simp
  have w1 : word (line addr typ name mod) = some (hex 16 addr.toNat, [typ] ++ 0x20#8 :: (name ++ tail)) := by
    rw [hline]
    apply word_space _ _ hexne (hex_nospace 16 _)
    rw [show hex 16 addr.toNat ++ 0x20#8 :: ([typ] ++ 0x20#8 :: (name ++ tail)) =
      (hex 16 addr.toNat ++ 0x20#8 :: [typ]) ++ 0x20#8 :: (name ++ tail) by simp, lastcons]
    exact hlast
  have w2 : word ([typ] ++ 0x20#8 :: (name ++ tail)) = some ([typ], name ++ tail) := by
    apply word_space _ _ (by simp) (by simpa using ht)
    rw [lastcons]; exact hlast
  unfold parseSymbol
  rw [w1]; dsimp only
  rw [haddr]; dsimp only
  rw [w2]; dsimp only
  cases mod with
  | none =>
    simp only [moduleSuffix] at htail; subst htail
    rw [List.append_nil, word_last name hne hname]
    rfl
  | some m =>
    simp only [moduleSuffix] at htail; subst htail
    have hm := hmod m rfl
    have hmw : ∀ b ∈ [0x5b#8] ++ m ++ [0x5d#8], isSpace b = false := by
      intro b hb
      simp only [List.mem_append, List.mem_singleton] at hb
      rcases hb with (rfl | hb) | rfl
      · decide
      · exact (hm b hb).1
      · decide
    have e : name ++ ([0x09#8, 0x5b#8] ++ m ++ [0x5d#8]) = name ++ 0x09#8 :: ([0x5b#8] ++ m ++ [0x5d#8]) := by simp
    rw [e, word_tab name _ hne hname (by simp) hmw]; dsimp only
    rw [word_last _ (by simp) hmw]; dsimp only
    rw [trimBrackets_id m (fun b hb => (hm b hb).2)]
    rfl

/-! Non-vacuity: a table with a unique, an ambiguous and a zero symbol. -/

/-- Sample file. -/
def sampleFile : List Bytes :=
  [line 0x10 0x54 [0x61] none, [], line 0x20 0x74 [0x62] (some [0x6d]), line 0x30 0x74 [0x62] none,
   line 0 0x41 [0x63] none]

example : tableOf sampleFile = some [(0x10, [0x61]), (0x20, [0x62]), (0x30, [0x62]), (0, [0x63])] := by
  decide +kernel
example : (assign (fun _ => none) (some ⟨sampleFile, false⟩) [[0x61], [0x64]] (fun _ => 7)).1 = none ∧
    (assign (fun _ => none) (some ⟨sampleFile, false⟩) [[0x61], [0x64]] (fun _ => 7)).2.2 [0x61] = 0x10 ∧
    (assign (fun _ => none) (some ⟨sampleFile, false⟩) [[0x61], [0x64]] (fun _ => 7)).2.2 [0x64] = 0 := by
  decide +kernel
example : (assign (fun _ => none) (some ⟨sampleFile, false⟩) [[0x62]] (fun _ => 7)).1 = some .ambiguous := by
  decide +kernel
example : (assign (fun _ => none) (some ⟨sampleFile, false⟩) [[0x63]] (fun _ => 7)).1 = some .restricted := by
  decide +kernel

end Ebpf.Kallsyms
