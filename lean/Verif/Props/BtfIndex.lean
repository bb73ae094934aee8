import Verif.Model.BtfIndex
import Verif.Props.BtfTypes
/-! # C28: lookup by name -/
namespace Ebpf.Btf

theorem toNat_key (h : BitVec 32) : (h.setWidth 64 <<< 32 : BitVec 64).toNat = h.toNat * 2 ^ 32 := by
  have := h.isLt
  simp only [BitVec.toNat_shiftLeft, BitVec.toNat_setWidth, Nat.shiftLeft_eq]
  omega

theorem toNat_entry (h : BitVec 32) (id : ID) : (indexEntry h id).toNat = h.toNat * 2 ^ 32 + id.toNat := by
  have h1 := h.isLt
  have h2 := id.isLt
  unfold indexEntry
  rw [BitVec.toNat_or]
  simp only [BitVec.toNat_shiftLeft, BitVec.toNat_setWidth]
  rw [Nat.mod_eq_of_lt (a := h.toNat) (by omega), Nat.mod_eq_of_lt (a := id.toNat) (by omega), Nat.mod_eq_of_lt (a := h.toNat <<< 32) (by rw [Nat.shiftLeft_eq]; omega),
    ← Nat.shiftLeft_add_eq_or_of_lt h2, Nat.shiftLeft_eq]

theorem entryHash_toNat (e : BitVec 64) : (entryHash e).toNat = e.toNat / 2 ^ 32 := by
  have := e.isLt
  unfold entryHash
  simp only [BitVec.toNat_setWidth, BitVec.toNat_ushiftRight, Nat.shiftRight_eq_div_pow]
  omega

theorem entryHash_entry (h : BitVec 32) (id : ID) : entryHash (indexEntry h id) = h := by
  apply BitVec.eq_of_toNat_eq
  rw [entryHash_toNat, toNat_entry]
  have := id.isLt
  omega

theorem entryID_entry (h : BitVec 32) (id : ID) : entryID (indexEntry h id) = id := by
  apply BitVec.eq_of_toNat_eq
  unfold entryID
  rw [BitVec.toNat_setWidth, toNat_entry]
  have := id.isLt
  omega

/-- Binary search in a sorted list: elements before the result are smaller than the target, the others are not. -/
theorem bsearch_spec (es : List (BitVec 64)) (t : BitVec 64) (hs : es.Pairwise (· ≤ ·)) :
    ∀ k i j, j ≤ i + k → i ≤ j → j ≤ es.length → (∀ (n : Nat) e, n < i → es[n]? = some e → e < t) → (∀ (n : Nat) e, j ≤ n → es[n]? = some e → t ≤ e) →
      (∀ (n : Nat) e, n < bsearch es t k i j → es[n]? = some e → e < t) ∧ (∀ (n : Nat) e, bsearch es t k i j ≤ n → es[n]? = some e → t ≤ e) := by
  have hmono : ∀ (a b : Nat) (x y : BitVec 64), a ≤ b → es[a]? = some x → es[b]? = some y → x ≤ y := by
    intro a b x y hab ha hb
    rw [List.getElem?_eq_some_iff] at ha hb
    obtain ⟨ha, rfl⟩ := ha
    obtain ⟨hb, rfl⟩ := hb
    rcases Nat.lt_or_ge a b with h | h
    · exact List.pairwise_iff_getElem.1 hs a b ha hb h
    · have : a = b := by omega
      subst this; exact BitVec.le_refl _
  intro k
  induction k with
  | zero =>
    intro i j hk hij hj hlo hhi
    have : j = i := by omega
    subst this
    exact ⟨hlo, hhi⟩
  | succ k ih =>
    intro i j hk hij hj hlo hhi
    unfold bsearch
    by_cases h : i < j
    · rw [if_pos h]
      have hm : (i + j) / 2 < es.length := by omega
      rw [List.getElem?_eq_getElem hm, Option.getD_some]
      by_cases hc : es[(i + j) / 2] < t
      · rw [if_pos hc]
        refine ih _ _ (by omega) (by omega) hj ?_ hhi
        intro n e hn he
        have := hmono n _ _ _ (by omega) he (List.getElem?_eq_getElem hm)
        rw [BitVec.lt_def] at hc ⊢
        rw [BitVec.le_def] at this
        omega
      · rw [if_neg hc]
        refine ih _ _ (by omega) (by omega) (by omega) hlo ?_
        intro n e hn he
        exact BitVec.le_trans (BitVec.not_lt.1 hc) (hmono _ n _ _ hn (List.getElem?_eq_getElem hm) he)
    · rw [if_neg h]
      have : j = i := by omega
      subst this
      exact ⟨hlo, hhi⟩

theorem takeWhile_eq_filter_of_sorted (h : BitVec 32) : ∀ es : List (BitVec 64), es.Pairwise (· ≤ ·) → (∀ e ∈ es, h.setWidth 64 <<< 32 ≤ e) →
    es.takeWhile (fun e => entryHash e == h) = es.filter (fun e => entryHash e == h)
  | [], _, _ => rfl
  | e :: es, hs, hge => by
    rw [List.pairwise_cons] at hs
    by_cases hc : entryHash e = h
    · simp only [List.takeWhile_cons, List.filter_cons, hc, beq_self_eq_true, if_true]
      rw [takeWhile_eq_filter_of_sorted h es hs.2 (fun x hx => hge x (by simp [hx]))]
    · have hc' : (entryHash e == h) = false := by simpa using hc
      rw [List.takeWhile_cons, List.filter_cons, hc']
      simp only [Bool.false_eq_true, if_false]
      symm
      rw [List.filter_eq_nil_iff]
      intro x hx
      have h1 := hs.1 x hx
      have h2 := hge e (by simp)
      simp only [beq_iff_eq]
      intro h3
      apply hc
      apply BitVec.eq_of_toNat_eq
      have h4 := congrArg BitVec.toNat h3
      rw [entryHash_toNat] at h4 ⊢
      rw [BitVec.le_def] at h1 h2
      rw [toNat_key] at h2
      omega

theorem insertEntry_perm (e : BitVec 64) : ∀ l, (insertEntry e l).Perm (e :: l)
  | [] => .refl _
  | x :: xs => by
    unfold insertEntry
    split
    · exact .refl _
    · exact ((insertEntry_perm e xs).cons x).trans (.swap e x xs)

theorem insertEntry_sorted (e : BitVec 64) : ∀ l : List (BitVec 64), l.Pairwise (· ≤ ·) → (insertEntry e l).Pairwise (· ≤ ·)
  | [], _ => by simp [insertEntry]
  | x :: xs, h => by
    unfold insertEntry
    rw [List.pairwise_cons] at h
    split
    · rename_i hle
      rw [List.pairwise_cons, List.pairwise_cons]
      refine ⟨?_, h⟩
      intro a ha
      rw [List.mem_cons] at ha
      rcases ha with rfl | ha
      · exact hle
      · exact BitVec.le_trans hle (h.1 a ha)
    · rename_i hle
      rw [List.pairwise_cons]
      refine ⟨?_, insertEntry_sorted e xs h.2⟩
      intro a ha
      rw [(insertEntry_perm e xs).mem_iff, List.mem_cons] at ha
      rcases ha with rfl | ha
      · rcases BitVec.le_total x a with h' | h'
        · exact h'
        · exact absurd h' hle
      · exact h.1 a ha

theorem buildIndex_perm (es : List (BitVec 64)) : (buildIndex es).Perm es := by
  unfold buildIndex
  induction es with
  | nil => exact .refl _
  | cons e es ih => exact (insertEntry_perm e _).trans (ih.cons e)

theorem buildIndex_sorted (es : List (BitVec 64)) : (buildIndex es).Pairwise (· ≤ ·) := by
  unfold buildIndex
  induction es with
  | nil => simp
  | cons e es ih => exact insertEntry_sorted e _ ih

/-- `Find` on any index yields the IDs of the entries with this hash, in the order of the index. -/
theorem findIDs_build (es : List (BitVec 64)) (h : BitVec 32) : findIDs (buildIndex es) h = ((buildIndex es).filter (fun e => entryHash e == h)).map entryID := by
  unfold findIDs
  generalize hS : buildIndex es = S
  have hs : S.Pairwise (· ≤ ·) := hS ▸ buildIndex_sorted es
  obtain ⟨h1, h2⟩ := bsearch_spec S (h.setWidth 64 <<< 32) hs S.length 0 S.length (by omega) (by omega) (Nat.le_refl _) (by intro n e hn; omega)
    (by
      intro n e hn he
      rw [List.getElem?_eq_none hn] at he; cases he)
  generalize bsearch S (h.setWidth 64 <<< 32) S.length 0 S.length = k at *
  congr 1
  rw [takeWhile_eq_filter_of_sorted h _ (List.Pairwise.sublist (List.drop_sublist k S) hs)]
  · conv => rhs; rw [← List.take_append_drop k S]
    rw [List.filter_append]
    have : (S.take k).filter (fun e => entryHash e == h) = [] := by
      rw [List.filter_eq_nil_iff]
      intro e he
      obtain ⟨n, hn, rfl⟩ := List.getElem_of_mem he
      have hn' : n < k := by simp at hn; omega
      have := h1 n ((S.take k)[n]) hn' (by rw [List.getElem_take]; exact List.getElem?_eq_getElem _)
      simp only [beq_iff_eq]
      intro hh
      have hh := congrArg BitVec.toNat hh
      rw [entryHash_toNat] at hh
      rw [BitVec.lt_def, toNat_key] at this
      omega
    rw [this, List.nil_append]
  · intro e he
    obtain ⟨n, hn, rfl⟩ := List.getElem_of_mem he
    refine h2 (k + n) _ (by omega) ?_
    rw [List.getElem_drop]
    exact List.getElem?_eq_getElem _

/-- The IDs of the types indexed under a hash, in order. -/
def hashIDs (hash : Bytes → BitVec 32) (h : BitVec 32) : ID → List Bytes → List ID
  | _, [] => []
  | id, n :: ns => if n ≠ [] ∧ hash (cutFlavour n) = h then id :: hashIDs hash h (id + 1) ns else hashIDs hash h (id + 1) ns

theorem indexNames_filter (hash : Bytes → BitVec 32) (h : BitVec 32) : ∀ (ns : List Bytes) (id : ID),
    (indexNames hash id ns).filter (fun e => entryHash e == h) = (hashIDs hash h id ns).map (indexEntry h)
  | [], _ => rfl
  | n :: ns, id => by
    unfold indexNames hashIDs
    by_cases hn : n = []
    · rw [if_pos hn, if_neg (by simp [hn]), indexNames_filter hash h ns]
    · rw [if_neg hn, List.filter_cons, entryHash_entry]
      by_cases hc : hash (cutFlavour n) = h
      · rw [if_pos (by simp [hc]), if_pos ⟨hn, hc⟩, indexNames_filter hash h ns, hc]; rfl
      · rw [if_neg (by simp [hc]), if_neg (by simp [hc]), indexNames_filter hash h ns]

theorem hashIDs_ge (hash : Bytes → BitVec 32) (h : BitVec 32) : ∀ (ns : List Bytes) (id : ID), id.toNat + ns.length ≤ 2 ^ 32 →
    (∀ x ∈ hashIDs hash h id ns, id.toNat ≤ x.toNat) ∧ (hashIDs hash h id ns).Pairwise (fun a b => a.toNat ≤ b.toNat)
  | [], _, _ => ⟨by simp [hashIDs], by simp [hashIDs]⟩
  | n :: ns, id, hb => by
    have hcase : ns = [] ∨ (id + 1).toNat = id.toNat + 1 := by
      cases ns with
      | nil => exact .inl rfl
      | cons _ _ =>
        right
        simp only [List.length_cons] at hb
        rw [BitVec.toNat_add]
        show (id.toNat + 1) % 2 ^ 32 = _
        omega
    have hrec : (∀ x ∈ hashIDs hash h (id + 1) ns, id.toNat ≤ x.toNat) ∧ (hashIDs hash h (id + 1) ns).Pairwise (fun a b => a.toNat ≤ b.toNat) := by
      rcases hcase with rfl | he
      · simp [hashIDs]
      · obtain ⟨h1, h2⟩ := hashIDs_ge hash h ns (id + 1) (by simp only [List.length_cons] at hb; omega)
        exact ⟨fun x hx => by have := h1 x hx; omega, h2⟩
    unfold hashIDs
    split
    · refine ⟨?_, ?_⟩
      · intro x hx
        rw [List.mem_cons] at hx
        rcases hx with rfl | hx
        · omega
        · exact hrec.1 x hx
      · rw [List.pairwise_cons]; exact ⟨hrec.1, hrec.2⟩
    · exact hrec

/-- `Find` yields exactly the IDs of the types whose indexed name has this hash, in increasing order. -/
theorem find_exact (hash : Bytes → BitVec 32) (h : BitVec 32) (ns : List Bytes) (hlen : ns.length < 2 ^ 32) :
    findIDs (buildIndex (indexNames hash 1 ns)) h = hashIDs hash h 1 ns := by
  rw [findIDs_build]
  have hp : ((buildIndex (indexNames hash 1 ns)).filter (fun e => entryHash e == h)).Perm ((hashIDs hash h 1 ns).map (indexEntry h)) := by
    rw [← indexNames_filter]
    exact (buildIndex_perm _).filter _
  have h1 : ((buildIndex (indexNames hash 1 ns)).filter (fun e => entryHash e == h)).Pairwise (· ≤ ·) := (buildIndex_sorted _).filter _
  have h2 : ((hashIDs hash h 1 ns).map (indexEntry h)).Pairwise (· ≤ ·) := by
    rw [List.pairwise_map]
    refine (hashIDs_ge hash h ns 1 (by simp; omega)).2.imp ?_
    intro a b hab
    rw [BitVec.le_def, toNat_entry, toNat_entry]
    omega
  have := hp.eq_of_pairwise (le := (· ≤ ·)) (fun a b _ _ h1 h2 => BitVec.le_antisymm h1 h2) h1 h2
  rw [this, List.map_map]
  have : (entryID ∘ indexEntry h) = id := by funext x; exact entryID_entry h x
  rw [this, List.map_id]

end Ebpf.Btf
