import Verif.Props.BtfRecord
import Verif.Props.BtfIds
/-! # C26: a BTF blob, written and indexed by the decoder -/
namespace Ebpf.Btf
open BtfSpec
set_option linter.unusedSectionVars false

section records
variable {T : Type}

/-- A record in a blob whose string table was built by `sb`. -/
structure FileRec (bo : ByteOrder) (idOf : T → Option (BitVec 32)) (sb : Builder) (n : Node T) (raw : BtfType) (data : Bytes) : Prop where
  len : raw.dataLen = some data.length
  refs : ∀ t ∈ fixOrder n, (idOf t).isSome
  reads : ∀ look legacy, Resolves look sb → (∀ id, legacy id = none) → ReadsAs bo look legacy raw data (n.map (idD idOf))
  tag : raw.kind = kindDeclTag.setWidth 32 ↔ ∃ t v i, n = .declTag t v i
  target : ∀ t v i, n = .declTag t v i → raw.sizeType = idD idOf t
  legacy : raw.kind.toNat = 1 → ∀ rest, ∃ w, take32 bo (data ++ rest) = some (w, rest) ∧ legacyInt raw.sizeType w = none

/-- Structs whose references are mapped alike are mapped alike. -/
theorem map_congr {S : Type} (n : Node T) (f g : T → S) (h : ∀ t ∈ fixOrder n, f t = g t) (hc : ∀ t, n ≠ .cycle t) : n.map f = n.map g := by
  cases n with
  | cycle t => exact absurd rfl (hc t)
  | array i t n => simp only [fixOrder, List.mem_cons, List.not_mem_nil, or_false, forall_eq_or_imp, forall_eq] at h; simp [Node.map, h]
  | struct n s ms ts =>
    simp only [fixOrder, List.mem_map, forall_exists_index, and_imp, forall_apply_eq_imp_iff₂] at h
    simp only [Node.map, Node.struct.injEq, true_and, and_true]
    exact List.map_congr_left fun m hm => by rw [h m hm]
  | union n s ms ts =>
    simp only [fixOrder, List.mem_map, forall_exists_index, and_imp, forall_apply_eq_imp_iff₂] at h
    simp only [Node.map, Node.union.injEq, true_and, and_true]
    exact List.map_congr_left fun m hm => by rw [h m hm]
  | funcProto r ps =>
    simp only [fixOrder, List.mem_append, List.mem_map, List.mem_singleton] at h
    simp only [Node.map, Node.funcProto.injEq]
    exact ⟨h _ (.inr rfl), List.map_congr_left fun m hm => by rw [h m.type (.inl ⟨m, hm, rfl⟩)]⟩
  | datasec n s vs =>
    simp only [fixOrder, List.mem_map, forall_exists_index, and_imp, forall_apply_eq_imp_iff₂] at h
    simp only [Node.map, Node.datasec.injEq, true_and]
    exact List.map_congr_left fun m hm => by rw [h m hm]
  | _ => simp_all [Node.map, fixOrder]

theorem lower_cycle (o : Opts) (ph : T) (n : Node T) (hn : ∀ t, n ≠ .cycle t) (t : T) : lower o ph n ≠ .cycle t := by
  cases n <;> simp_all [lower] <;> split <;> (try split) <;> simp

theorem RecordOK.file {bo : ByteOrder} {idOf idOf' : T → Option (BitVec 32)} {sb sb' sb'' : Builder} {n : Node T} {raw : BtfType} {data : Bytes}
    (h : RecordOK bo idOf sb n raw data sb') (hc : ∀ t, n ≠ .cycle t) (he : Ext sb' sb'') (hid : ∀ t id, idOf t = some id → idOf' t = some id) :
    FileRec bo idOf' sb'' n raw data := by
  have hd : ∀ t ∈ fixOrder n, idD idOf t = idD idOf' t := by
    intro t ht
    obtain ⟨id, hi⟩ := Option.isSome_iff_exists.1 (h.refs t ht)
    simp [idD, hi, hid t id hi]
  refine ⟨h.len, ?_, ?_, h.tag, ?_, h.legacy⟩
  · intro t ht
    obtain ⟨id, hi⟩ := Option.isSome_iff_exists.1 (h.refs t ht)
    simp [hid t id hi]
  · intro look legacy hr hl
    rw [← map_congr n _ _ hd hc]
    exact h.reads look legacy (hr.mono he) hl
  · rintro t v i rfl
    rw [h.target t v i rfl]
    exact hd t (by simp [fixOrder])
end records

section marshal
variable {R : Type} [DecidableEq R]

theorem assignIDs_keep (g : Graph R) : ∀ (ts : List (TRef R)) (e e' : Enc R), assignIDs g ts e = some e' →
    ∀ t id, e.ids.lookup t = some id → e'.ids.lookup t = some id
  | [], e, e', h, t, id, hl => by cases h; exact hl
  | x :: ts, e, e', h, t, id, hl => by
    unfold assignIDs at h
    split at h
    · exact assignIDs_keep g ts e e' h t id hl
    · split at h
      · exact assignIDs_keep g ts e e' h t id hl
      · rename_i hs
        split at h
        · cases h
        · apply assignIDs_keep g ts _ e' h t id
          show List.lookup t ((x, _) :: e.ids) = _
          rw [List.lookup_cons]
          have : (t == x) = false := by
            simp; rintro rfl; rw [hl] at hs; simp at hs
          rw [this]; exact hl

theorem assignIDs_strings (g : Graph R) : ∀ (ts : List (TRef R)) (e e' : Enc R), assignIDs g ts e = some e' → e'.strings = e.strings
  | [], e, e', h => by cases h; rfl
  | x :: ts, e, e', h => by
    unfold assignIDs at h
    split at h
    · exact assignIDs_strings g ts e e' h
    · split at h
      · exact assignIDs_strings g ts e e' h
      · split at h
        · cases h
        · exact (assignIDs_strings g ts _ e' h).trans rfl

theorem allocateIDs_keep (g : Graph R) (fuel : Nat) (root : TRef R) (e e' : Enc R) (h : allocateIDs g fuel root e = some e') :
    (∀ t id, e.ids.lookup t = some id → e'.ids.lookup t = some id) ∧ e'.strings = e.strings := by
  unfold allocateIDs at h
  split at h
  · cases h
  · exact ⟨fun t id hl => assignIDs_keep g _ _ _ h t id hl, (assignIDs_strings g _ _ _ h).trans rfl⟩

theorem allocatePlaceholder_keep (o : Opts) (g : Graph R) (fuel : Nat) (root : TRef R) (e e' : Enc R) (h : allocatePlaceholder o g fuel root e = some e') :
    (∀ t id, e.ids.lookup t = some id → e'.ids.lookup t = some id) ∧ e'.strings = e.strings := by
  unfold allocatePlaceholder at h
  split at h
  · split at h
    · split at h
      · exact allocateIDs_keep g fuel _ e e' h
      · cases h; exact ⟨fun _ _ h => h, rfl⟩
    · cases h; exact ⟨fun _ _ h => h, rfl⟩
  · cases h; exact ⟨fun _ _ h => h, rfl⟩

theorem id_keep (g : Graph R) (e e' : Enc R) (h : ∀ t id, e.ids.lookup t = some id → e'.ids.lookup t = some id) (t : TRef R) (id : BitVec 32)
    (hi : e.id g t = some id) : e'.id g t = some id := by
  unfold Enc.id at hi ⊢
  split
  · rename_i hv; rw [if_pos hv] at hi; exact hi
  · rename_i hv; rw [if_neg hv] at hi; exact h t id hi

/-- Every record written describes its type, with the IDs and strings of the whole blob. -/
theorem deflatePending_records (o : Opts) (bo : ByteOrder) (g : Graph R) (fuel : Nat) : ∀ (n : Nat) (e e' : Enc R) (recs : List (TRef R × Bytes)),
    deflatePending o bo g fuel n e = some (recs, e') → (∀ t ∈ recs.map (·.1), Fits (extGraph g t)) →
    (∀ t id, e.ids.lookup t = some id → e'.ids.lookup t = some id) ∧ Ext e.strings e'.strings ∧
    ∃ out : List (TRef R × BtfType × Bytes), recs = out.map (fun x => (x.1, x.2.1.encode bo ++ x.2.2)) ∧
      ∀ x ∈ out, FileRec bo (e'.id g) e'.strings (lower o (placeholderOf x.1) (extGraph g x.1)) x.2.1 x.2.2 := by
  intro n
  induction n with
  | zero =>
    intro e e' recs h _
    unfold deflatePending at h
    split at h
    · cases h; exact ⟨fun _ _ h => h, Ext.refl _, [], rfl, by simp⟩
    · cases h
  | succ n ih =>
    intro e e' recs h hfit
    unfold deflatePending at h
    split at h
    · cases h; exact ⟨fun _ _ h => h, Ext.refl _, [], rfl, by simp⟩
    · rename_i root pending hp
      dsimp only at h
      cases ha : allocateIDs g fuel root { e with pending := pending } with
      | none => rw [ha] at h; cases h
      | some e1 =>
        rw [ha] at h; dsimp only at h
        cases hb : allocatePlaceholder o g fuel root e1 with
        | none => rw [hb] at h; cases h
        | some e2 =>
          rw [hb] at h; dsimp only at h
          cases hd : deflateType o bo (e2.id g) (placeholderOf root) (extGraph g root) e2.strings with
          | none => rw [hd] at h; cases h
          | some q =>
            obtain ⟨raw, data, sb⟩ := q
            rw [hd] at h; dsimp only at h
            cases hrest : deflatePending o bo g fuel n { e2 with strings := sb } with
            | none => rw [hrest] at h; cases h
            | some q =>
              obtain ⟨rest, e3⟩ := q
              rw [hrest] at h
              cases h
              obtain ⟨k3, x3, out, ho, hr⟩ := ih { e2 with strings := sb } e' rest hrest (fun t ht => hfit t (by simp only [List.map_cons, List.mem_cons]; exact .inr ht))
              obtain ⟨k1, s1⟩ := allocateIDs_keep g fuel root _ _ ha
              obtain ⟨k2, s2⟩ := allocatePlaceholder_keep o g fuel root _ _ hb
              have hcyc : ∀ t, extGraph g root ≠ .cycle t := by
                intro t ht
                rw [ht] at hd
                simp only [deflateType] at hd
                split at hd <;> cases hd
              have hok := record_roundtrip o bo (e2.id g) (placeholderOf root) (extGraph g root) e2.strings sb raw data (hfit root (by simp)) hd
              refine ⟨fun t id hl => k3 t id (k2 t id (k1 t id hl)), ?_, (root, raw, data) :: out, by simp [ho], ?_⟩
              · have e2' := hok.ext
                rw [s2, s1] at e2'
                exact Ext.trans e2' x3
              · intro x hx
                simp only [List.mem_cons] at hx
                rcases hx with rfl | hx
                · exact hok.file (lower_cycle o _ _ hcyc) x3 (id_keep g e2 e' k3)
                · exact hr x hx
end marshal

/-! ## The decoder's index -/

/-- The bytes of a list of records. -/
def flat (bo : ByteOrder) : List (BtfType × Bytes) → Bytes
  | [] => []
  | (raw, data) :: L => raw.encode bo ++ (data ++ flat bo L)

/-- Offsets of records. -/
def offs : Nat → List (BtfType × Bytes) → List (Nat × BtfType)
  | _, [] => []
  | n, (raw, data) :: L => (n, raw) :: offs (n + 12 + data.length) L

theorem encode_length (bo : ByteOrder) (raw : BtfType) : (raw.encode bo).length = 12 := by
  simp [BtfType.encode, put32_length]

theorem flat_length (bo : ByteOrder) : ∀ (L : List (BtfType × Bytes)), 12 * L.length ≤ (flat bo L).length
  | [] => by simp [flat]
  | (raw, data) :: L => by
    have := flat_length bo L
    simp only [flat, List.length_append, encode_length, List.length_cons]; omega

theorem allOffsets_flat (bo : ByteOrder) : ∀ (L : List (BtfType × Bytes)) (pre : Bytes) (fuel : Nat), L.length ≤ fuel →
    (∀ x ∈ L, x.1.dataLen = some x.2.length) →
    allOffsets bo (pre ++ flat bo L) fuel pre.length = some (offs pre.length L)
  | [], pre, fuel, _, _ => by
    cases fuel <;> simp [allOffsets, flat, offs]
  | (raw, data) :: L, pre, 0, hf, _ => by simp at hf
  | (raw, data) :: L, pre, fuel + 1, hf, hl => by
    unfold allOffsets
    have h1 : pre.length < (pre ++ flat bo ((raw, data) :: L)).length := by
      simp only [flat, List.length_append, encode_length]; omega
    rw [if_pos h1, List.drop_left, flat, header_roundtrip]
    have hd : raw.dataLen = some data.length := hl (raw, data) (by simp)
    simp only [hd]
    rw [if_neg (by simp only [List.length_append, encode_length]; omega)]
    have hsplit : pre ++ (raw.encode bo ++ (data ++ flat bo L)) = (pre ++ raw.encode bo ++ data) ++ flat bo L := by simp
    have hlen : pre.length + 12 + data.length = (pre ++ raw.encode bo ++ data).length := by simp [encode_length]; omega
    rw [hsplit, hlen, allOffsets_flat bo L _ fuel (by simpa using hf) (fun x hx => hl x (by simp [hx]))]
    simp only [offs, hlen]

/-- The positions of the tags in a list of records. -/
def tagPairs : ID → List (BtfType × Bytes) → List (ID × ID)
  | _, [] => []
  | id, (raw, _) :: L => if raw.kind = kindDeclTag.setWidth 32 then (raw.sizeType, id) :: tagPairs (id + 1) L else tagPairs (id + 1) L

theorem numberTypes_offs (st : StrTab) : ∀ (L : List (BtfType × Bytes)) (id : ID) (n : Nat), (∀ x ∈ L, ∃ s, st.lookup x.1.nameOff = some s) →
    numberTypes st id (offs n L) = some ((offs n L).map (·.1), tagPairs id L)
  | [], id, n, _ => by simp [numberTypes, offs, tagPairs]
  | (raw, data) :: L, id, n, h => by
    obtain ⟨s, hs⟩ := h (raw, data) (by simp)
    dsimp only at hs
    simp only [offs, numberTypes, hs, numberTypes_offs st L (id + 1) _ (fun x hx => h x (by simp [hx])), List.map_cons, tagPairs]

/-- The bytes found at the offset of a record. -/
theorem offs_get (bo : ByteOrder) : ∀ (L : List (BtfType × Bytes)) (pre : Bytes) (i : Nat) (x : BtfType × Bytes), L[i]? = some x →
    ∃ off rest, ((offs pre.length L).map (·.1))[i]? = some off ∧ off < (pre ++ flat bo L).length ∧
      (pre ++ flat bo L).drop off = x.1.encode bo ++ (x.2 ++ rest)
  | [], pre, i, x, h => by simp at h
  | (raw, data) :: L, pre, 0, x, h => by
    simp at h; subst h
    refine ⟨pre.length, flat bo L, by simp [offs], ?_, by simp [flat]⟩
    simp only [flat, List.length_append, encode_length]; omega
  | (raw, data) :: L, pre, i + 1, x, h => by
    simp at h
    have hsplit : pre ++ (raw.encode bo ++ (data ++ flat bo L)) = (pre ++ raw.encode bo ++ data) ++ flat bo L := by simp
    have hlen : pre.length + 12 + data.length = (pre ++ raw.encode bo ++ data).length := by simp [encode_length]; omega
    obtain ⟨off, rest, h1, h2, h3⟩ := offs_get bo L (pre ++ raw.encode bo ++ data) i x h
    refine ⟨off, rest, ?_, ?_, ?_⟩
    · simp only [offs, List.map_cons, List.getElem?_cons_succ, hlen, h1]
    · rw [flat, hsplit]; exact h2
    · rw [flat, hsplit]; exact h3

theorem offs_length : ∀ (L : List (BtfType × Bytes)) (n : Nat), (offs n L).length = L.length
  | [], n => rfl
  | (raw, data) :: L, n => by simp [offs, offs_length L]

/-- IDs of the tags of type `id` among `nodes`, numbered from `k`. -/
def tagIDsFrom (k : ID) : List (Node ID) → ID → List ID
  | [], _ => []
  | n :: ns, id =>
    match n with
    | .declTag t _ _ => if t = id then k :: tagIDsFrom (k + 1) ns id else tagIDsFrom (k + 1) ns id
    | _ => tagIDsFrom (k + 1) ns id

/-- What a decoder knows: the type with ID `i + 1` is `nodes[i]`, and nothing else has an ID. -/
structure Describes (d : Dec) (nodes : List (Node ID)) : Prop where
  size : nodes.length < 2 ^ 32
  at_ : ∀ (i : Nat) n, nodes[i]? = some n → d.record (BitVec.ofNat 32 (i + 1)) = some ⟨earlyOf n, fixOrder n, some n⟩
  beyond : ∀ id, nodes.length < id.toNat → d.record id = none
  tags : ∀ id, d.tagsOf id = tagIDsFrom 1 nodes id

theorem newDecoder_describes {T : Type} (bo : ByteOrder) (idOf : T → Option (BitVec 32)) (sb : Builder) (st : StrTab) (L : List (Node T × BtfType × Bytes))
    (hL : L.length < 2 ^ 32) (hrec : ∀ x ∈ L, FileRec bo idOf sb x.1 x.2.1 x.2.2) (hst : Resolves st.lookup sb) :
    ∃ d, newDecoder (flat bo (L.map (·.2))) bo st = some d ∧ Describes d (L.map fun x => x.1.map (idD idOf)) := by
  have hlen : ∀ x ∈ L.map (·.2), x.1.dataLen = some x.2.length := by
    intro x hx; simp at hx
    obtain ⟨n, hx⟩ := hx
    exact (hrec _ hx).len
  have h1 := allOffsets_flat bo (L.map (·.2)) [] (flat bo (L.map (·.2))).length (by have := flat_length bo (L.map (·.2)); omega) hlen
  simp only [List.nil_append, List.length_nil] at h1
  have h2 := numberTypes_offs st (L.map (·.2)) 1 0 (by
    intro x hx; simp at hx
    obtain ⟨n, hx⟩ := hx
    obtain ⟨name, hn, _⟩ := (hrec _ hx).reads st.lookup (fun _ => none) hst (fun _ => rfl)
    exact ⟨name, hn⟩)
  refine ⟨⟨bo, flat bo (L.map (·.2)), st, (offs 0 (L.map (·.2))).map (·.1), tagPairs 1 (L.map (·.2))⟩, ?_, ?_⟩
  · simp only [newDecoder, h1, h2]
  · -- the raw record at an ID
    generalize hd : (⟨bo, flat bo (L.map (·.2)), st, (offs 0 (L.map (·.2))).map (·.1), tagPairs 1 (L.map (·.2))⟩ : Dec) = d
    have hbo : d.bo = bo := by rw [← hd]
    have hstr : d.strings = st := by rw [← hd]
    have hraw : ∀ (i : Nat) x, L[i]? = some x → ∃ rest, d.rawAt (BitVec.ofNat 32 (i + 1)) = some (x.2.1, x.2.2 ++ rest) := by
      intro i x hx
      have hi := getElem?_lt hx
      obtain ⟨off, rest, o1, o2, o3⟩ := offs_get bo (L.map (·.2)) [] i x.2 (by rw [List.getElem?_map, hx]; rfl)
      simp only [List.nil_append, List.length_nil] at o1 o2 o3
      refine ⟨rest, ?_⟩
      have hn : (BitVec.ofNat 32 (i + 1)).toNat - 1 = i := by
        rw [BitVec.toNat_ofNat, Nat.mod_eq_of_lt (by omega)]; omega
      unfold Dec.rawAt
      rw [hn, ← hd]
      simp only [o1]
      rw [if_neg (by omega), o3, header_roundtrip]
    have hnone : ∀ id : ID, L.length < id.toNat → d.rawAt id = none := by
      intro id hid
      unfold Dec.rawAt
      rw [← hd]
      have : ((offs 0 (L.map (·.2))).map (·.1))[id.toNat - 1]? = none := by
        rw [List.getElem?_eq_none]; simp [offs_length]; omega
      simp only [this]
    have hleg : ∀ id, d.legacy id = none := by
      intro id
      unfold Dec.legacy
      split
      · rfl
      · rename_i hne
        have hpos : 0 < id.toNat := by
          rcases Nat.eq_zero_or_pos id.toNat with h | h
          · exact absurd (BitVec.eq_of_toNat_eq (by simpa using h)) hne
          · exact h
        rcases Nat.lt_or_ge L.length id.toNat with h | h
        · rw [hnone id h]
        · have hx : L[id.toNat - 1]? = some (L[id.toNat - 1]'(by omega)) := List.getElem?_eq_getElem (by omega)
          obtain ⟨rest, hr⟩ := hraw _ _ hx
          have : BitVec.ofNat 32 (id.toNat - 1 + 1) = id := by
            rw [Nat.sub_add_cancel hpos]; exact BitVec.ofNat_toNat ..|>.trans (by simp)
          rw [this] at hr
          rw [hr]
          dsimp only
          split
          · rename_i hk
            obtain ⟨w, hw, hl⟩ := (hrec _ (List.getElem_mem (by omega))).legacy hk rest
            rw [hbo, hw]; exact hl
          · rfl
    refine ⟨by simpa using hL, ?_, ?_, ?_⟩
    · intro i n hn
      rw [List.getElem?_map] at hn
      cases hx : L[i]? with
      | none => rw [hx] at hn; cases hn
      | some x =>
        rw [hx] at hn; cases hn
        obtain ⟨rest, hr⟩ := hraw i x hx
        obtain ⟨name, hname, hp⟩ := (hrec x (List.mem_of_getElem? hx)).reads st.lookup d.legacy hst hleg
        unfold Dec.record
        rw [hr, hstr, hbo]
        simp only [hname, hp]
    · intro id hid
      simp only [List.length_map] at hid
      unfold Dec.record
      rw [hnone id hid]
    · intro id
      have key : ∀ (M : List (Node T × BtfType × Bytes)) (k : ID), (∀ x ∈ M, FileRec bo idOf sb x.1 x.2.1 x.2.2) →
          ((tagPairs k (M.map (·.2))).filter fun p => p.1 = id).map (·.2) = tagIDsFrom k (M.map fun x => x.1.map (idD idOf)) id := by
        intro M
        induction M with
        | nil => intro k _; rfl
        | cons x M ih =>
          intro k hM
          obtain ⟨n, raw, data⟩ := x
          have hx := hM _ (List.mem_cons_self ..)
          have ihk := ih (k + 1) (fun y hy => hM y (by simp [hy]))
          dsimp only at hx
          by_cases ht : raw.kind = kindDeclTag.setWidth 32
          · obtain ⟨t, v, i, rfl⟩ := hx.tag.1 ht
            have hs := hx.target t v i rfl
            have hm : (Node.declTag t v i : Node T).map (idD idOf) = .declTag (idD idOf t) v i := rfl
            simp only [List.map_cons, tagPairs, ht, if_true, hm, tagIDsFrom, List.filter_cons, hs, decide_eq_true_eq]
            by_cases hq : idD idOf t = id
            · simp only [hq, if_true, List.map_cons, ihk]
            · simp only [hq, if_false, ihk]
          · have hn : ∀ t v i, n ≠ .declTag t v i := fun t v i h => ht (hx.tag.2 ⟨t, v, i, h⟩)
            simp only [List.map_cons, tagPairs, ht, if_false]
            rw [ihk]
            cases n <;> simp_all [tagIDsFrom, Node.map]
      rw [← key L 1 hrec]
      unfold Dec.tagsOf
      rw [← hd]

end Ebpf.Btf
