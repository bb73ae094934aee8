import Verif.Spec.Batch
/-!
# C81: batched map operations
-/
namespace Ebpf.Batch
open Ebpf.BatchSpec

variable {σ E : Type}

/-- The cursor is fresh or was used with this map. -/
def Bound (m : MapRef) (c : Cursor) : Prop := c.opaque_ = none ∨ (c.m = some m.id ∧ ∃ t, c.opaque_ = some t ∧ t.length = cursorLen m)

theorem buf_length {m : MapRef} {c : Cursor} (h : Bound m c) : (cursorBuf m c).length = cursorLen m := by
  unfold cursorBuf
  rcases h with h | ⟨_, t, h, ht⟩
  · rw [h]; exact List.length_replicate
  · rw [h]; exact ht

theorem overlay_length (t old : Bytes) : (overlay t old).length = old.length := by
  unfold overlay
  rw [List.length_append, List.length_take, List.length_drop]; omega

theorem bound_after {m : MapRef} {c : Cursor} (h : Bound m c) (r : Reply E) : Bound m (cursorAfter m c r) := by
  refine .inr ⟨rfl, _, rfl, ?_⟩
  cases r.out with
  | none => exact buf_length h
  | some t => simp only [overlay_length]; exact buf_length h

theorem fits_of_bound {m : MapRef} {c : Cursor} (h : Bound m c) : cursorFits m c = true := by
  unfold cursorFits
  rcases h with h | ⟨hm, t, h, _⟩
  · rw [h]
  · rw [h]; exact decide_eq_true hm

/-- One call of a user with matching slices, when nothing goes wrong in user space. -/
theorem call_eq (k : σ → Req → σ × Reply E) (m : MapRef) (delete : Bool) {c : Cursor} (hb : Bound m c) (n : Nat) (s : σ) :
    batchLookup k true true true m delete c n n s =
      ((k s (request m delete c n)).1, cursorAfter m c (k s (request m delete c n)).2,
        (match (k s (request m delete c n)).2.err with | none => (k s (request m delete c n)).2.elems | some .enoent => (k s (request m delete c n)).2.elems | some _ => []),
        (match (k s (request m delete c n)).2.err with | none => none | some .enoent => some .notExist | some .enospc => some .noSpace | some _ => some .sys)) := by
  unfold batchLookup batchLookupCmd
  rw [if_neg (fun x => x.2 rfl), fits_of_bound hb, if_neg (by simp)]
  simp only
  generalize k s (request m delete c n) = r
  cases he : r.2.err with
  | none => simp
  | some e => cases e <;> simp

theorem iterate_from (k : σ → Req → σ × Reply E) (m : MapRef) (delete : Bool) (es : List E) (At : σ → Option Bytes → Nat → Prop) (hk : Iterates k m es At) :
    ∀ (sizes : List Nat) (c : Cursor) (s : σ) (p : Nat), (∀ n ∈ sizes, 0 < n) → Bound m c → At s c.opaque_ p → p ≤ es.length →
    ∃ q, p + q ≤ es.length ∧ (iterate k m delete sizes c s).2.2.1 = (es.drop p).take q ∧
      (some Err.notExist ∈ (iterate k m delete sizes c s).2.2.2 → p + q = es.length) ∧ (iterate k m delete sizes c s).2.2.2.count none ≤ q
  | [], c, s, p, _, _, _, hp => ⟨0, by omega, by simp [iterate], by simp [iterate], by simp [iterate]⟩
  | n :: ns, c, s, p, hn, hb, hat, hp => by
    have hn0 := hn n List.mem_cons_self
    have hns : ∀ x ∈ ns, 0 < x := fun x hx => hn x (List.mem_cons_of_mem _ hx)
    have hlen : (request m delete c n).outLen = max m.keySize 4 := buf_length hb
    unfold iterate
    rw [call_eq k m delete hb n s]
    have hb' := bound_after hb (k s (request m delete c n)).2
    have hbl := buf_length hb
    rcases hk.reply s (request m delete c n) p rfl hlen hat hp hn0 with ⟨e1, e2, e3, e4, e5, t, e6, e7⟩ | ⟨e1, e2⟩ | ⟨e1, t, e2, e3⟩ | ⟨e0, e1, e2, e3⟩
    · simp only [e1]
      have hat' : At (k s (request m delete c n)).1 (cursorAfter m c (k s (request m delete c n)).2).opaque_ (p + (k s (request m delete c n)).2.elems.length) := by
        unfold cursorAfter
        rw [e6]
        exact e7 _ hbl
      obtain ⟨q, h1, h2, h3, h4⟩ := iterate_from k m delete es At hk ns _ _ _ hns hb' hat' e4
      refine ⟨(k s (request m delete c n)).2.elems.length + q, by omega, ?_, ?_, ?_⟩
      · rw [h2]
        conv => lhs; arg 1; rw [e5]
        rw [← List.drop_drop, ← List.take_add]
      · intro hm
        rcases List.mem_cons.mp hm with x | x
        · cases x
        · have := h3 x; omega
      · rw [List.count_cons]
        simp
        omega
    · simp only [e1]
      refine ⟨es.length - p, by omega, ?_, fun _ => by omega, by simp⟩
      rw [e2, List.take_of_length_le]
      rw [List.length_drop]; omega
    · simp only [e1]
      have hat' : At (k s (request m delete c n)).1 (cursorAfter m c (k s (request m delete c n)).2).opaque_ p := by
        unfold cursorAfter
        rw [e2]
        exact e3 _ hbl
      obtain ⟨q, h1, h2, h3, h4⟩ := iterate_from k m delete es At hk ns _ _ _ hns hb' hat' hp
      refine ⟨q, h1, by rw [h2]; rfl, ?_, ?_⟩
      · intro hm
        rcases List.mem_cons.mp hm with x | x
        · cases x
        · exact h3 x
      · rw [List.count_cons]; simp; exact h4
    · have hop : (cursorAfter m c (k s (request m delete c n)).2).opaque_ = c.opaque_ := by
        unfold cursorAfter cursorBuf
        rw [e1]
        cases ho : c.opaque_ with
        | none => exact absurd ho e0
        | some x => rfl
      have hat' : At (k s (request m delete c n)).1 (cursorAfter m c (k s (request m delete c n)).2).opaque_ p := by
        rw [hop]; exact e2
      obtain ⟨q, h1, h2, h3, h4⟩ := iterate_from k m delete es At hk ns _ _ _ hns hb' hat' hp
      rcases e3 with e3 | e3
      all_goals
        simp only [e3]
        refine ⟨q, h1, by rw [h2]; rfl, ?_, ?_⟩
        · intro hm
          rcases List.mem_cons.mp hm with x | x
          · cases x
          · exact h3 x
        · rw [List.count_cons]; simp; exact h4

/-- **C81.** Calling BatchLookup or BatchLookupAndDelete with a fresh cursor and slices of any lengths until it says ErrKeyNotExist gives every element of the map exactly once, in
the kernel's order, whether or not some batches were too small or failed in between; before that it gives a part without gaps. No more calls than there are elements succeed without
saying ErrKeyNotExist, so the loop ends. -/
theorem iterate_exact_partial (k : σ → Req → σ × Reply E) (m : MapRef) (delete : Bool) (es : List E) (At : σ → Option Bytes → Nat → Prop) (hk : Iterates k m es At) (s : σ) (h0 : At s none 0)
    (sizes : List Nat) (hs : ∀ n ∈ sizes, 0 < n) :
    (∃ q, (iterate k m delete sizes ⟨none, none⟩ s).2.2.1 = es.take q) ∧
    (some Err.notExist ∈ (iterate k m delete sizes ⟨none, none⟩ s).2.2.2 → (iterate k m delete sizes ⟨none, none⟩ s).2.2.1 = es) ∧
    (iterate k m delete sizes ⟨none, none⟩ s).2.2.2.count none ≤ es.length := by
  obtain ⟨q, h1, h2, h3, h4⟩ := iterate_from k m delete es At hk sizes ⟨none, none⟩ s 0 hs (.inl rfl) h0 (by omega)
  rw [List.drop_zero] at h2
  refine ⟨⟨q, h2⟩, fun hm => ?_, by omega⟩
  have := h3 hm
  rw [h2, List.take_of_length_le (by omega)]

theorem iterate_calls (k : σ → Req → σ × Reply E) (m : MapRef) (delete : Bool) : ∀ (sizes : List Nat) (c : Cursor) (s : σ),
    some Err.notExist ∉ (iterate k m delete sizes c s).2.2.2 → (iterate k m delete sizes c s).2.2.2.length = sizes.length
  | [], c, s, _ => rfl
  | n :: ns, c, s, h => by
    unfold iterate at h ⊢
    split
    · rename_i heq
      rw [heq] at h
      exact absurd List.mem_cons_self h
    · rename_i s' c' es e hne heq
      rw [heq] at h
      split at h
      · exact absurd List.mem_cons_self h
      · rename_i s'' c'' es' e' hne' heq'
        injection heq' with a b
        injection b with b1 b2
        injection b2 with b2 b3
        subst a b1 b3
        rw [List.length_cons, List.length_cons, iterate_calls k m delete ns _ _ (fun x => h (List.mem_cons_of_mem _ x))]

/-- **C81.** With more calls than elements the end is reached, if there is no other error. -/
theorem iterate_ends (k : σ → Req → σ × Reply E) (m : MapRef) (delete : Bool) (es : List E) (At : σ → Option Bytes → Nat → Prop) (hk : Iterates k m es At) (s : σ) (h0 : At s none 0)
    (sizes : List Nat) (hs : ∀ n ∈ sizes, 0 < n) (hlen : es.length < sizes.length)
    (herr : ∀ e ∈ (iterate k m delete sizes ⟨none, none⟩ s).2.2.2, e = none ∨ e = some .notExist) :
    some Err.notExist ∈ (iterate k m delete sizes ⟨none, none⟩ s).2.2.2 := by
  apply Decidable.byContradiction
  intro hn
  have h1 := (iterate_exact_partial k m delete es At hk s h0 sizes hs).2.2
  have h2 := iterate_calls k m delete sizes ⟨none, none⟩ s hn
  have h3 : (iterate k m delete sizes ⟨none, none⟩ s).2.2.2.count none = (iterate k m delete sizes ⟨none, none⟩ s).2.2.2.length := by
    rw [List.count_eq_length]
    intro e he
    rcases herr e he with x | x
    · exact x.symm
    · rw [x] at he; exact absurd he hn
  omega

/-! ### Linux is such a kernel -/

theorem get_put (x : BitVec 32) (old : Bytes) (ho : 4 ≤ old.length) : index ((ByteOrder.put32 .little x).take old.length ++ old.drop (ByteOrder.put32 .little x).length) = x.toNat := by
  have h4 : (ByteOrder.put32 .little x).length = 4 := rfl
  rw [List.take_of_length_le (by rw [h4]; exact ho)]
  show (ByteOrder.get32 .little (x.extractLsb' 0 8) (x.extractLsb' 8 8) (x.extractLsb' 16 8) (x.extractLsb' 24 8)).toNat = x.toNat
  congr 1
  unfold ByteOrder.get32
  simp only
  ext i hi
  simp only [BitVec.getElem_append]
  simp
  repeat' split
  all_goals (try simp only [BitVec.getElem_extractLsb'])
  all_goals (first
    | (rw [BitVec.getLsbD_eq_getElem (by omega)]; congr 1; omega)
    | (rw [BitVec.getLsbD_eq_getElem (by omega)]))

/-- Where an array's cursor stands. -/
def arrayAt (es : List E) (_ : Unit) (t : Option Bytes) (p : Nat) : Prop :=
  match t with
  | none => p = 0
  | some t => index t < es.length ∧ p = index t + 1

theorem array_iterates (es : List E) (hes : es.length < 2 ^ 32) (m : MapRef) : Iterates (arrayKernel es) m es (arrayAt es) := by
  constructor
  intro s r p _ hol hat hp hc
  have hpos : arrayStart es.length r.inBatch = p := by
    unfold arrayStart; unfold arrayAt at hat
    cases hi : r.inBatch with
    | none => rw [hi] at hat; simp only at hat ⊢; exact hat.symm
    | some t =>
      rw [hi] at hat
      simp only at hat ⊢
      rw [if_neg (by omega)]; exact hat.2.symm
  unfold arrayKernel
  simp only [hpos]
  have hlen : ((es.drop p).take (min r.count (es.length - p))).length = min r.count (es.length - p) := by
    rw [List.length_take, List.length_drop]; omega
  by_cases hn : min r.count (es.length - p) < r.count
  · right; left
    rw [if_pos hn]
    refine ⟨rfl, ?_⟩
    rw [List.take_of_length_le]
    rw [List.length_drop]; omega
  · left
    rw [if_neg hn, hlen]
    refine ⟨rfl, by omega, by omega, by omega, rfl, ?_⟩
    rw [if_neg (by omega)]
    refine ⟨_, rfl, fun old ho => ?_⟩
    unfold arrayAt
    simp only
    rw [get_put _ old (by rw [ho]; omega), BitVec.toNat_ofNat]
    have : (p + min r.count (es.length - p) - 1) % 2 ^ 32 = p + min r.count (es.length - p) - 1 := Nat.mod_eq_of_lt (by omega)
    omega

theorem htab_loop : ∀ (xs : List (List E)) (b room : Nat) (none_ : Bool),
    b ≤ (htabLoop b xs room none_).2.1 ∧ (htabLoop b xs room none_).2.1 ≤ b + xs.length ∧
    (htabLoop b xs room none_).1 = (xs.take ((htabLoop b xs room none_).2.1 - b)).flatten ∧ (htabLoop b xs room none_).1.length ≤ room ∧
    ((htabLoop b xs room none_).2.2 = some .enoent → (htabLoop b xs room none_).2.1 = b + xs.length) ∧
    ((htabLoop b xs room none_).2.2 = some .enospc → (htabLoop b xs room none_).1 = []) ∧
    ((htabLoop b xs room none_).2.2 = none → none_ = true → (htabLoop b xs room none_).1 ≠ []) ∧
    ((htabLoop b xs room none_).2.2 = none ∨ (htabLoop b xs room none_).2.2 = some .enoent ∨ (htabLoop b xs room none_).2.2 = some .enospc) ∧
    (none_ = false → (htabLoop b xs room none_).2.2 ≠ some .enospc)
  | [], b, room, none_ => by simp [htabLoop]
  | x :: xs, b, room, none_ => by
    unfold htabLoop
    split
    · cases none_ <;> simp
    · rename_i hr
      obtain ⟨h1, h2, h3, h4, h5, h6, h7, h8, h9⟩ := htab_loop xs (b + 1) (room - x.length) (none_ && x.isEmpty)
      simp only
      generalize htabLoop (b + 1) xs (room - x.length) (none_ && x.isEmpty) = r at *
      refine ⟨by omega, by rw [List.length_cons]; omega, ?_, ?_, fun he => by rw [List.length_cons, h5 he]; omega, fun he => ?_, fun he hn => ?_, h8, fun hn he => ?_⟩
      · have : r.2.1 - b = (r.2.1 - (b + 1)) + 1 := by omega
        rw [this, List.take_succ_cons, List.flatten_cons, h3]
      · rw [List.length_append]; omega
      · cases x with
        | nil => rw [h6 he]; rfl
        | cons y ys => exact absurd he (h9 (by simp))
      · cases x with
        | nil => rw [List.nil_append]; exact h7 he (by simp [hn])
        | cons y ys => simp
      · exact h9 (by simp [hn]) he

/-- Where a hash table's cursor stands: the buckets from there on are as they were. -/
def htabAt (bs : List (List E)) (s : List (List E)) (t : Option Bytes) (p : Nat) : Prop :=
  s.length = bs.length ∧ ∃ b, b ≤ bs.length ∧ (match t with | none => b = 0 | some t => index t = b) ∧ s.drop b = bs.drop b ∧ p = (bs.take b).flatten.length

theorem take_flatten_drop (bs : List (List E)) (b c : Nat) (hbc : b ≤ c) : (bs.take c).flatten = (bs.take b).flatten ++ ((bs.drop b).take (c - b)).flatten := by
  rw [← List.flatten_append]
  congr 1
  have : c = b + (c - b) := by omega
  conv => lhs; rw [this]
  exact List.take_add

theorem htab_iterates (bs : List (List E)) (hbs : bs.length < 2 ^ 32) (m : MapRef) : Iterates htabKernel m bs.flatten (htabAt bs) := by
  constructor
  intro s r p _ hol hat hp hc
  obtain ⟨hsl, b, hb, ht, hd, hpb⟩ := hat
  have hbb : htabStart r.inBatch = b := by
    unfold htabStart
    cases hi : r.inBatch with
    | none => rw [hi] at ht; exact ht.symm
    | some t => rw [hi] at ht; exact ht
  obtain ⟨h1, h2, h3, h4, h5, h6, h7, h8, _⟩ := htab_loop (bs.drop b) b r.count true
  have hdp : bs.flatten.drop p = (bs.drop b).flatten := by
    rw [hpb]
    conv => lhs; arg 2; rw [← List.take_append_drop b bs]
    rw [List.flatten_append, List.drop_left]
  unfold htabKernel
  simp only [hbb, hd]
  obtain ⟨x, hx⟩ : ∃ x, x = htabLoop b (bs.drop b) r.count true := ⟨_, rfl⟩
  rw [← hx] at h1 h2 h3 h4 h5 h6 h7 h8 ⊢
  rw [List.length_drop] at h2 h5
  -- the state afterwards
  have hst : ∀ s' : List (List E), s' = (if r.delete = true then s.take b ++ List.replicate (x.2.1 - b) [] ++ s.drop x.2.1 else s) → s'.length = bs.length ∧ s'.drop x.2.1 = bs.drop x.2.1 := by
    intro s' hs'
    have hdrop : s.drop x.2.1 = bs.drop x.2.1 := by
      have : x.2.1 = b + (x.2.1 - b) := by omega
      rw [this, ← List.drop_drop, ← List.drop_drop, hd]
    rw [hs']
    split
    · have hl : (s.take b ++ List.replicate (x.2.1 - b) ([] : List E)).length = x.2.1 := by
        rw [List.length_append, List.length_take, List.length_replicate]; omega
      refine ⟨?_, ?_⟩
      · rw [List.length_append, hl, List.length_drop]; omega
      · rw [List.drop_append, hl, List.drop_eq_nil_of_le (by omega), Nat.sub_self, List.drop_zero, List.nil_append, hdrop]
    · exact ⟨hsl, hdrop⟩
  have hcur : ∀ old : Bytes, old.length = max m.keySize 4 → htabAt bs (if r.delete = true then s.take b ++ List.replicate (x.2.1 - b) [] ++ s.drop x.2.1 else s)
      (some ((ByteOrder.put32 .little (BitVec.ofNat 32 x.2.1)).take old.length ++ old.drop (ByteOrder.put32 .little (BitVec.ofNat 32 x.2.1)).length)) (p + x.1.length) := by
    intro old ho
    obtain ⟨g1, g2⟩ := hst _ rfl
    refine ⟨g1, x.2.1, by omega, ?_, g2, ?_⟩
    · simp only
      rw [get_put _ old (by rw [ho]; omega), BitVec.toNat_ofNat]
      exact Nat.mod_eq_of_lt (by omega)
    · rw [take_flatten_drop bs b x.2.1 h1, List.length_append, ← h3, hpb]
  have helems : x.1 = (bs.flatten.drop p).take x.1.length := by
    rw [hdp]
    conv => rhs; arg 2; rw [← List.take_append_drop (x.2.1 - b) (bs.drop b)]
    rw [List.flatten_append, ← h3, List.take_left]
  rcases h8 with h8 | h8 | h8
  · left
    refine ⟨h8, List.length_pos_iff.mpr (h7 h8 rfl), h4, ?_, helems, _, rfl, hcur⟩
    have : x.1.length ≤ (bs.flatten.drop p).length := by
      have h := congrArg List.length helems
      rw [List.length_take] at h; omega
    rw [List.length_drop] at this
    omega
  · right; left
    refine ⟨h8, ?_⟩
    rw [hdp, h3, h5 h8, List.take_of_length_le]
    rw [List.length_drop]; omega
  · right; right; left
    refine ⟨h8, _, rfl, fun old ho => ?_⟩
    have := hcur old ho
    rw [h6 h8] at this
    exact this

/-- **C81.** For Linux arrays and hash tables. -/
theorem array_exact (es : List E) (hes : es.length < 2 ^ 32) (m : MapRef) (delete : Bool) (sizes : List Nat) (hs : ∀ n ∈ sizes, 0 < n)
    (h : some Err.notExist ∈ (iterate (arrayKernel es) m delete sizes ⟨none, none⟩ ()).2.2.2) : (iterate (arrayKernel es) m delete sizes ⟨none, none⟩ ()).2.2.1 = es :=
  (iterate_exact_partial _ m delete es _ (array_iterates es hes m) () rfl sizes hs).2.1 h

theorem htab_exact (bs : List (List E)) (hbs : bs.length < 2 ^ 32) (m : MapRef) (delete : Bool) (sizes : List Nat) (hs : ∀ n ∈ sizes, 0 < n)
    (h : some Err.notExist ∈ (iterate htabKernel m delete sizes ⟨none, none⟩ bs).2.2.2) : (iterate htabKernel m delete sizes ⟨none, none⟩ bs).2.2.1 = bs.flatten :=
  (iterate_exact_partial _ m delete bs.flatten _ (htab_iterates bs hbs m) bs ⟨rfl, 0, by omega, rfl, rfl, rfl⟩ sizes hs).2.1 h

/-- A hash table read and emptied in batches that are too small at first. -/
example : ((iterate htabKernel ⟨1, 8, 8, false⟩ true [1, 2, 2, 3, 3] ⟨none, none⟩ [[10, 11], [], [12], [13, 14, 15]]).2.2.1 = [10, 11, 12, 13, 14, 15]) ∧
    ((iterate htabKernel ⟨1, 8, 8, false⟩ true [1, 2, 2, 3, 3] ⟨none, none⟩ [[10, 11], [], [12], [13, 14, 15]]).2.2.2 = [some .noSpace, none, none, some .notExist]) ∧
    ((iterate htabKernel ⟨1, 8, 8, false⟩ true [1, 2, 2, 3, 3] ⟨none, none⟩ [[10, 11], [], [12], [13, 14, 15]]).1 = [[], [], [], []]) := by decide +kernel

/-! ### Buffers -/

theorem lookup_cursor (k : σ → Req → σ × Reply E) (a b d : Bool) (m : MapRef) (delete : Bool) (c : Cursor) (kl vl : Nat) (s : σ) :
    (batchLookup k a b d m delete c kl vl s).2.1 = if (m.perCPU = false ∧ kl ≠ vl) ∨ cursorFits m c = false then c else cursorAfter m c (k s (request m delete c kl)).2 := by
  unfold batchLookup
  by_cases h1 : m.perCPU = false ∧ kl ≠ vl
  · rw [if_pos h1, if_pos (.inl h1)]
  · rw [if_neg h1]
    unfold batchLookupCmd
    by_cases h2 : cursorFits m c = false
    · rw [if_pos h2, if_pos (.inr h2)]
    · rw [if_neg h2, if_neg (fun x => x.elim h1 h2)]
      simp only
      generalize k s (request m delete c kl) = r
      cases he : r.2.err with
      | none => cases b <;> cases d <;> rfl
      | some e => cases e <;> cases a <;> cases b <;> cases d <;> rfl

/-- **C81.** Whatever the calls with one cursor, on whatever maps and with whatever outcome: every system call has room for a cursor of that map (key size for arrays and
tries, four bytes for hash tables), the cursor it continues from is one of that map, and the buffers hold as many keys and values as the kernel is asked for. -/
theorem buffers_suffice (k : σ → Req → σ × Reply E) (calls : List Call) (hid : ∀ a ∈ calls, ∀ b ∈ calls, a.m.id = b.m.id → a.m = b.m) (s : σ) :
    ∀ x ∈ requests k calls ⟨none, none⟩ s, x.2.map = x.1.id ∧ x.1.keySize ≤ x.2.outLen ∧ 4 ≤ x.2.outLen ∧
      (∀ t, x.2.inBatch = some t → x.1.keySize ≤ t.length ∧ 4 ≤ t.length) ∧ x.2.keysLen = x.2.count * x.1.keySize ∧ x.2.valuesLen = x.2.count * x.1.fullValueSize := by
  have main : ∀ (l : List Call) (c : Cursor) (s : σ), (∀ a ∈ l, a ∈ calls) → (c.opaque_ = none ∨ ∃ a ∈ calls, Bound a.m c ∧ c.m = some a.m.id) →
      ∀ x ∈ requests k l c s, x.2.map = x.1.id ∧ x.1.keySize ≤ x.2.outLen ∧ 4 ≤ x.2.outLen ∧
      (∀ t, x.2.inBatch = some t → x.1.keySize ≤ t.length ∧ 4 ≤ t.length) ∧ x.2.keysLen = x.2.count * x.1.keySize ∧ x.2.valuesLen = x.2.count * x.1.fullValueSize := by
    intro l
    induction l with
    | nil => intro c s _ _ x hx; cases hx
    | cons a r ih =>
      intro c s hl hc x hx
      have hr : ∀ a ∈ r, a ∈ calls := fun b hb => hl b (List.mem_cons_of_mem _ hb)
      unfold requests at hx
      simp only at hx
      have hcur := lookup_cursor k a.have_ a.keysOk a.valsOk a.m a.delete c a.keysLen a.valuesLen s
      by_cases hskip : (a.m.perCPU = false ∧ a.keysLen ≠ a.valuesLen) ∨ cursorFits a.m c = false
      · rw [if_pos hskip] at hx hcur
        exact ih _ _ hr (by rw [hcur]; exact hc) x hx
      · rw [if_neg hskip] at hx hcur
        have hfit : cursorFits a.m c = true := by
          cases h : cursorFits a.m c with
          | true => rfl
          | false => exact absurd (.inr h) hskip
        have hb : Bound a.m c := by
          rcases hc with hc | ⟨b, hb, hbb, hbm⟩
          · exact .inl hc
          · cases ho : c.opaque_ with
            | none => exact .inl ho
            | some t =>
              unfold cursorFits at hfit
              rw [ho] at hfit
              have h1 : c.m = some a.m.id := of_decide_eq_true hfit
              rw [hbm] at h1
              have : b.m = a.m := hid b hb a (hl a List.mem_cons_self) (Option.some.inj h1)
              rw [← this]; exact hbb
        rcases List.mem_cons.mp hx with hx | hx
        · rw [hx]
          have h1 := buf_length hb
          have h2 : (request a.m a.delete c a.keysLen).outLen = cursorLen a.m := h1
          refine ⟨rfl, ?_, ?_, fun t ht => ?_, rfl, rfl⟩
          · show a.m.keySize ≤ (request a.m a.delete c a.keysLen).outLen
            rw [h2]; exact Nat.le_max_left _ _
          · show 4 ≤ (request a.m a.delete c a.keysLen).outLen
            rw [h2]; exact Nat.le_max_right _ _
          · have ho : c.opaque_ = some t := ht
            rcases hb with hb | ⟨_, t', ht', hlen⟩
            · rw [hb] at ho; cases ho
            · rw [ho] at ht'; cases ht'
              show a.m.keySize ≤ t.length ∧ 4 ≤ t.length
              rw [hlen]
              exact ⟨Nat.le_max_left _ _, Nat.le_max_right _ _⟩
        · refine ih _ _ hr (.inr ⟨a, hl a List.mem_cons_self, ?_, ?_⟩) x hx
          · rw [hcur]; exact bound_after hb _
          · rw [hcur]; rfl
  exact main calls ⟨none, none⟩ s (fun _ h => h) (.inl rfl)

/-! ### What goes wrong -/

/-- An array whose first batch fails, for lack of memory. -/
def flakyArray (es : List E) (s : Bool) (r : Req) : Bool × Reply E :=
  if s then (true, (arrayKernel es () r).2) else (true, ⟨[], none, some .other⟩)

/-- **C81, counterexample.** If the very first batch fails and the user goes on with the same cursor, the first element of an array is skipped: the cursor is then a buffer of zeroes, which
names element 0 as the last one read. -/
theorem first_failure_skips : ∃ (m : MapRef) (es : List Nat), (iterate (flakyArray es) m false [2, 2, 2, 2] ⟨none, none⟩ false).2.2.1 = es.drop 1 ∧ es.drop 1 ≠ es ∧
    (iterate (flakyArray es) m false [2, 2, 2, 2] ⟨none, none⟩ false).2.2.2 = [some .sys, none, some .notExist] :=
  ⟨⟨1, 4, 8, false⟩, [10, 11, 12, 13], by decide +kernel, by decide, by decide +kernel⟩

/-- A kernel that is interrupted after copying elements, as `generic_map_lookup_batch` is when elements vanish while it looks at them. -/
def interrupted (es : List E) (s : Bool) (r : Req) : Bool × Reply E :=
  if s then (true, (arrayKernel es () r).2) else (true, { (arrayKernel es () r).2 with err := some .other })

/-- **C81, counterexample.** Elements the kernel has delivered before such an error are dropped although the cursor has moved past them. -/
theorem interrupted_lost : ∃ (m : MapRef) (es : List Nat), (iterate (interrupted es) m false [2, 2, 2] ⟨none, none⟩ false).2.2.1 = es.drop 2 ∧ es.drop 2 ≠ es ∧
    some .notExist ∈ (iterate (interrupted es) m false [2, 2, 2] ⟨none, none⟩ false).2.2.2 :=
  ⟨⟨1, 4, 8, false⟩, [10, 11, 12], by decide +kernel, by decide, by decide +kernel⟩

/-- **C81, counterexample.** If a batch that was looked up and deleted cannot be decoded, its elements are gone. -/
theorem undecodable_deleted : ∃ (m : MapRef) (bs : List (List Nat)), bs.flatten ≠ [] ∧
    (batchLookup htabKernel true true false m true ⟨none, none⟩ 4 4 bs).1.flatten = [] ∧ (batchLookup htabKernel true true false m true ⟨none, none⟩ 4 4 bs).2.2 = ([], some .decode) :=
  ⟨⟨1, 4, 8, false⟩, [[1], [2, 3]], by decide, by decide +kernel, by decide +kernel⟩

/-- **C81.** BatchUpdate and BatchDelete return what the kernel counted. -/
theorem count_reported (count n : Nat) (err : Option Errno) : (batchCountResult true count (some n) err).1 = n ∧ ((batchCountResult true count (some n) err).2 = none ↔ err = none) := by
  cases err <;> simp [batchCountResult]

/-- **C81, counterexample.** Linux before 6.8 does not set the count if it refuses the whole batch; then all elements are reported as updated, beside the error. -/
theorem count_of_refused_batch (count : Nat) : batchCountResult true count none (some .other) = (count, some .sys) := rfl

/-! ### The first key -/

theorem guess_missing (lookup : Bytes → Option Errno) : ∀ (gs : List Bytes) (g : Bytes), guess lookup gs = some g → g ∈ gs ∧ lookup g = some .enoent
  | [], g, h => by cases h
  | x :: gs, g, h => by
    unfold guess at h
    split at h
    · cases h; exact ⟨List.mem_cons_self, by assumption⟩
    · obtain ⟨h1, h2⟩ := guess_missing lookup gs g h
      exact ⟨List.mem_cons_of_mem _ h1, h2⟩

/-- **C14, C81.** Asked for the first key, NextKey returns the map's first key or an error, also on kernels before 4.4.132, which do not know the question and are asked for the key
after one that does not exist. `first`: the map's first key; a map that does not change meanwhile. -/
theorem first_key (next : Option Bytes → Except Errno Bytes) (lookup : Bytes → Option Errno) (keySize : Nat) (rand : Bytes) (first : Except Errno Bytes)
    (hnew : next none = first ∨ next none = .error .efault) (hmissing : ∀ g, lookup g = some .enoent → next (some g) = first) (b : Bytes)
    (h : nextKey next lookup keySize rand none = .ok b) : first = .ok b := by
  unfold nextKey at h
  rcases hnew with hn | hn
  · rw [hn] at h
    cases hf : first with
    | ok x => rw [hf] at h; simp only at h; cases h; rfl
    | error e =>
      rw [hf] at h
      simp only at h
      split at h
      · cases hg : guess lookup (guesses keySize rand) with
        | none => rw [hg] at h; cases h
        | some g =>
          rw [hg] at h
          simp only [hmissing g (guess_missing lookup _ g hg).2, hf] at h
          cases h
      · cases h
  · rw [hn] at h
    simp only [and_self, if_true] at h
    cases hg : guess lookup (guesses keySize rand) with
    | none => rw [hg] at h; cases h
    | some g =>
      rw [hg] at h
      simp only [hmissing g (guess_missing lookup _ g hg).2] at h
      cases hf : first with
      | ok x => rw [hf] at h; simp only at h; cases h; rfl
      | error e => rw [hf] at h; cases h

/-- On such a kernel, the first key of an array is always found: the index 2^32-1 is never in an array. -/
theorem first_key_array (len : Nat) (hlen : 0 < len) (hlen2 : len < 2 ^ 32) (rand : Bytes) :
    nextKey (fun k => match k with | none => .error .efault | some t => if index t ≥ len then .ok [0, 0, 0, 0] else if index t + 1 = len then .error .enoent else .ok (ByteOrder.put32 .little (BitVec.ofNat 32 (index t + 1))))
      (fun t => if index t < len then none else some .enoent) 4 rand none = .ok [0, 0, 0, 0] := by
  have h0 : index [0, 0, 0, 0] = 0 := by decide
  have hf : index [0xff, 0xff, 0xff, 0xff] = 2 ^ 32 - 1 := by decide
  have hg : guess (fun t => if index t < len then none else some .enoent) (guesses 4 rand) = some [0xff, 0xff, 0xff, 0xff] := by
    show guess _ [[0, 0, 0, 0], [0xff, 0xff, 0xff, 0xff], _, _] = _
    have hnot : ¬ 2 ^ 32 - 1 < len := by omega
    simp only [guess, h0, hf, hlen, if_true, if_neg hnot, reduceCtorEq, if_false]
  unfold nextKey
  simp only [and_self, if_true, hg, hf]
  rw [if_pos (by omega)]

/-- A key is asked for as it is. -/
theorem next_key_passed (next : Option Bytes → Except Errno Bytes) (lookup : Bytes → Option Errno) (keySize : Nat) (rand key b : Bytes) :
    nextKey next lookup keySize rand (some key) = .ok b ↔ next (some key) = .ok b := by
  unfold nextKey
  cases next (some key) with
  | ok x => simp
  | error e => simp

end Ebpf.Batch
