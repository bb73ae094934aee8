import Verif.Props.BtfReadable
import Verif.Props.BtfBlob
/-! # C26: marshalling succeeds -/
namespace Ebpf.Btf
open BtfSpec
set_option linter.unusedSectionVars false

section deflate
variable {T : Type}

theorem add_total (sb : Builder) (s : Bytes) (h : 0#8 ∉ s) : ∃ o sb', sb.add s = some (o, sb') := by
  unfold Builder.add
  rw [if_neg h]
  split
  · exact ⟨_, _, rfl⟩
  · exact ⟨_, _, rfl⟩

theorem members_total (bo : ByteOrder) (idOf : T → Option (BitVec 32)) : ∀ (ms : List (Member T)) (bf : Bool) (sb : Builder),
    (∀ m ∈ ms, 0#8 ∉ m.name ∧ (idOf m.type).isSome) → ∃ data bf' sb', deflateMembers bo idOf ms bf sb = some (data, bf', sb') ∧ data.length = 12 * ms.length
  | [], bf, sb, _ => ⟨_, _, _, rfl, rfl⟩
  | m :: ms, bf, sb, h => by
    obtain ⟨o, sb1, h1⟩ := add_total sb m.name (h m (by simp)).1
    obtain ⟨id, h2⟩ := Option.isSome_iff_exists.1 (h m (by simp)).2
    obtain ⟨d, b, s, h3, h4⟩ := members_total bo idOf ms (bf || m.bitfieldSize != 0) sb1 (fun m hm => h m (by simp [hm]))
    exact ⟨_, _, _, by simp only [deflateMembers, h1, h2, h3]; rfl, by simp [put32_length, h4]; omega⟩

theorem enums_total (bo : ByteOrder) (sg : Bool) : ∀ (vs : List EnumValue) (sb : Builder),
    (∀ v ∈ vs, 0#8 ∉ v.name ∧ enumFits sg v.value = true) → ∃ data sb', deflateEnumValues bo sg vs sb = some (data, sb') ∧ data.length = 8 * vs.length
  | [], sb, _ => ⟨_, _, rfl, rfl⟩
  | v :: vs, sb, h => by
    obtain ⟨o, sb1, h1⟩ := add_total sb v.name (h v (by simp)).1
    have h2 := (h v (by simp)).2
    obtain ⟨d, s, h3, h4⟩ := enums_total bo sg vs sb1 (fun m hm => h m (by simp [hm]))
    exact ⟨_, _, by simp only [deflateEnumValues, h1, h2, h3]; rfl, by simp [put32_length, h4]; omega⟩

theorem enums64_total (bo : ByteOrder) : ∀ (vs : List EnumValue) (sb : Builder),
    (∀ v ∈ vs, 0#8 ∉ v.name) → ∃ data sb', deflateEnum64Values bo vs sb = some (data, sb') ∧ data.length = 12 * vs.length
  | [], sb, _ => ⟨_, _, rfl, rfl⟩
  | v :: vs, sb, h => by
    obtain ⟨o, sb1, h1⟩ := add_total sb v.name (h v (by simp))
    obtain ⟨d, s, h3, h4⟩ := enums64_total bo vs sb1 (fun m hm => h m (by simp [hm]))
    exact ⟨_, _, by simp only [deflateEnum64Values, h1, h3]; rfl, by simp [put32_length, h4]; omega⟩

theorem params_total (bo : ByteOrder) (idOf : T → Option (BitVec 32)) : ∀ (ps : List (FuncParam T)) (sb : Builder),
    (∀ p ∈ ps, 0#8 ∉ p.name ∧ (idOf p.type).isSome) → ∃ data sb', deflateFuncParams bo idOf ps sb = some (data, sb') ∧ data.length = 8 * ps.length
  | [], sb, _ => ⟨_, _, rfl, rfl⟩
  | m :: ms, sb, h => by
    obtain ⟨o, sb1, h1⟩ := add_total sb m.name (h m (by simp)).1
    obtain ⟨id, h2⟩ := Option.isSome_iff_exists.1 (h m (by simp)).2
    obtain ⟨d, s, h3, h4⟩ := params_total bo idOf ms sb1 (fun m hm => h m (by simp [hm]))
    exact ⟨_, _, by simp only [deflateFuncParams, h1, h2, h3]; rfl, by simp [put32_length, h4]; omega⟩

theorem vars_total (bo : ByteOrder) (idOf : T → Option (BitVec 32)) : ∀ (vs : List (VarSecinfo T)),
    (∀ v ∈ vs, (idOf v.type).isSome) → ∃ data, deflateVarSecinfos bo idOf vs = some data ∧ data.length = 12 * vs.length
  | [], _ => ⟨_, rfl, rfl⟩
  | v :: vs, h => by
    obtain ⟨id, h2⟩ := Option.isSome_iff_exists.1 (h v (by simp))
    obtain ⟨d, h3, h4⟩ := vars_total bo idOf vs (fun m hm => h m (by simp [hm]))
    exact ⟨_, by simp only [deflateVarSecinfos, h2, h3]; rfl, by simp [put32_length, h4]; omega⟩

/-- The number of bytes after the header of a record. -/
def dataLen : Node T → Nat
  | .int .. => 4
  | .array .. => 12
  | .struct _ _ ms _ => 12 * ms.length
  | .union _ _ ms _ => 12 * ms.length
  | .enum _ s _ vs => (if s = 8 then 12 else 8) * vs.length
  | .funcProto _ ps => 8 * ps.length
  | .var .. => 4
  | .datasec _ _ vs => 12 * vs.length
  | .declTag .. => 4
  | _ => 0

theorem ref_total (idOf : T → Option (BitVec 32)) (raw : BtfType) (k : BitVec 8) (t : T) (sb : Builder) (h : (idOf t).isSome) :
    ∃ raw' sb', deflateRef idOf raw k t sb = some (raw', [], sb') := by
  obtain ⟨id, h2⟩ := Option.isSome_iff_exists.1 h
  exact ⟨(raw.setKind k).setSizeType id, sb, by simp only [deflateRef, h2]⟩

theorem composite_total (bo : ByteOrder) (idOf : T → Option (BitVec 32)) (raw : BtfType) (k : BitVec 8) (size : BitVec 32) (ms : List (Member T)) (sb : Builder)
    (h : ∀ m ∈ ms, 0#8 ∉ m.name ∧ (idOf m.type).isSome) :
    ∃ raw' data sb', deflateComposite bo idOf raw k size ms sb = some (raw', data, sb') ∧ data.length = 12 * ms.length := by
  obtain ⟨d, b, s, h1, h2⟩ := members_total bo idOf ms false sb h
  exact ⟨_, _, _, by simp only [deflateComposite, h1]; rfl, h2⟩

theorem deflateType_total (o : Opts) (bo : ByteOrder) (idOf : T → Option (BitVec 32)) (ph : T) (n : Node T) (sb : Builder)
    (hid : ∀ t ∈ fixOrder (lower o ph n), (idOf t).isSome) (hname : 0#8 ∉ n.name) (hs : ∀ s ∈ strings (lower o ph n), 0#8 ∉ s)
    (hv : n ≠ .void) (hc : ∀ t, n ≠ .cycle t)
    (he : ∀ nm s sg vs, n = .enum nm s sg vs → s ≠ 8 → ∀ v ∈ vs, enumFits sg v.value = true) :
    ∃ raw data sb', deflateType o bo idOf ph n sb = some (raw, data, sb') ∧ data.length = dataLen (lower o ph n) := by
  obtain ⟨off, sb1, h1⟩ := add_total sb n.name hname
  unfold deflateType
  rw [h1]
  cases n with
  | void => exact absurd rfl hv
  | cycle t => exact absurd rfl (hc t)
  | int a b c => exact ⟨_, _, _, rfl, by simp [deflateInt, put32_length, lower, dataLen]⟩
  | ptr t =>
    obtain ⟨r, s, h⟩ := ref_total idOf ⟨off, 0, 0⟩ kindPointer t sb1 (hid t (by simp [lower, fixOrder]))
    exact ⟨_, _, _, h, rfl⟩
  | typedef a t c =>
    obtain ⟨r, s, h⟩ := ref_total idOf ⟨off, 0, 0⟩ kindTypedef t sb1 (hid t (by simp [lower, fixOrder]))
    exact ⟨_, _, _, h, rfl⟩
  | volatile t =>
    obtain ⟨r, s, h⟩ := ref_total idOf ⟨off, 0, 0⟩ kindVolatile t sb1 (hid t (by simp [lower, fixOrder]))
    exact ⟨_, _, _, h, rfl⟩
  | const t =>
    obtain ⟨r, s, h⟩ := ref_total idOf ⟨off, 0, 0⟩ kindConst t sb1 (hid t (by simp [lower, fixOrder]))
    exact ⟨_, _, _, h, rfl⟩
  | restrict t =>
    obtain ⟨r, s, h⟩ := ref_total idOf ⟨off, 0, 0⟩ kindRestrict t sb1 (hid t (by simp [lower, fixOrder]))
    exact ⟨_, _, _, h, rfl⟩
  | array i t c =>
    obtain ⟨a, ha⟩ := Option.isSome_iff_exists.1 (hid i (by simp [lower, fixOrder]))
    obtain ⟨b, hb⟩ := Option.isSome_iff_exists.1 (hid t (by simp [lower, fixOrder]))
    exact ⟨_, _, _, by simp only [ha, hb]; rfl, by simp [put32_length, lower, dataLen]⟩
  | struct a b ms d =>
    obtain ⟨r, dd, s, h, h'⟩ := composite_total bo idOf ⟨off, 0, 0⟩ kindStruct b ms sb1 (fun m hm =>
      ⟨hs _ (by simp only [lower, strings, List.map_map, List.mem_cons, List.mem_map]; exact .inr ⟨m, hm, rfl⟩),
       hid _ (by simp only [lower, fixOrder, List.map_map, List.mem_map]; exact ⟨m, hm, rfl⟩)⟩)
    exact ⟨_, _, _, h, by simp [h', lower, dataLen]⟩
  | union a b ms d =>
    obtain ⟨r, dd, s, h, h'⟩ := composite_total bo idOf ⟨off, 0, 0⟩ kindUnion b ms sb1 (fun m hm =>
      ⟨hs _ (by simp only [lower, strings, List.map_map, List.mem_cons, List.mem_map]; exact .inr ⟨m, hm, rfl⟩),
       hid _ (by simp only [lower, fixOrder, List.map_map, List.mem_map]; exact ⟨m, hm, rfl⟩)⟩)
    exact ⟨_, _, _, h, by simp [h', lower, dataLen]⟩
  | enum a size sg vs =>
    dsimp only
    by_cases h8 : size = 8
    · rw [if_pos h8]
      by_cases ho : o.replaceEnum64 = true
      · rw [if_pos ho]
        simp only [lower, if_pos ho, if_pos h8] at hid hs ⊢
        obtain ⟨r, dd, s, h, h'⟩ := composite_total bo idOf ⟨off, 0, 0⟩ kindUnion size (vs.map fun v => ⟨v.name, ph, 0, 0, []⟩) sb1 (fun m hm =>
          ⟨hs _ (by simp only [strings, List.mem_cons, List.mem_map]; exact .inr ⟨m, List.mem_map.1 hm, rfl⟩),
           hid _ (by simp only [fixOrder, List.mem_map]; exact ⟨m, List.mem_map.1 hm, rfl⟩)⟩)
        exact ⟨_, _, _, h, by simp [h', dataLen]⟩
      · rw [if_neg ho]
        simp only [lower, if_neg ho] at hs ⊢
        obtain ⟨d, s, h, h'⟩ := enums64_total bo vs sb1 (fun v hv => hs _ (by simp only [strings, List.mem_cons, List.mem_map]; exact .inr ⟨v, hv, rfl⟩))
        exact ⟨_, _, _, by rw [h], by simp [h', dataLen, h8]⟩
    · rw [if_neg h8]
      have hnm : ∀ v ∈ vs, 0#8 ∉ v.name := by
        intro v hv
        apply hs
        simp only [lower, if_neg h8]
        split
        · simp only [strings, List.mem_cons, List.mem_map]
          exact .inr ⟨_, ⟨v, hv, rfl⟩, rfl⟩
        · simp only [strings, List.mem_cons, List.mem_map]
          exact .inr ⟨v, hv, rfl⟩
      obtain ⟨d, s, h, h'⟩ := enums_total bo sg vs sb1 (fun v hv => ⟨hnm v hv, he _ _ _ _ rfl h8 v hv⟩)
      refine ⟨_, _, _, by rw [h], ?_⟩
      simp only [lower, if_neg h8]
      split
      · simp only [h', dataLen, if_neg h8, List.length_map]
      · simp only [h', dataLen, if_neg h8]
  | fwd a b => exact ⟨_, _, _, rfl, rfl⟩
  | float a b => exact ⟨_, _, _, rfl, rfl⟩
  | func a t l ts pts =>
    obtain ⟨b, hb⟩ := Option.isSome_iff_exists.1 (hid t (by simp [lower, fixOrder]))
    exact ⟨_, _, _, by simp only [hb]; rfl, rfl⟩
  | funcProto ret ps =>
    obtain ⟨b, hb⟩ := Option.isSome_iff_exists.1 (hid ret (by simp [lower, fixOrder]))
    obtain ⟨d, s, h, h'⟩ := params_total bo idOf ps sb1 (fun p hp =>
      ⟨hs _ (by simp only [lower, strings, List.mem_map]; exact ⟨p, hp, rfl⟩), hid _ (by simp only [lower, fixOrder, List.mem_append, List.mem_map]; exact .inl ⟨p, hp, rfl⟩)⟩)
    exact ⟨_, _, _, by simp only [hb, h]; rfl, by simp [h', lower, dataLen]⟩
  | var a t l ts =>
    obtain ⟨b, hb⟩ := Option.isSome_iff_exists.1 (hid t (by simp [lower, fixOrder]))
    exact ⟨_, _, _, by simp only [hb]; rfl, by simp [put32_length, lower, dataLen]⟩
  | datasec a b vs =>
    obtain ⟨d, h, h'⟩ := vars_total bo idOf vs (fun p hp => hid _ (by simp only [lower, fixOrder, List.mem_map]; exact ⟨p, hp, rfl⟩))
    exact ⟨_, _, _, by simp only [h]; rfl, by simp [h', lower, dataLen]⟩
  | declTag t v i =>
    dsimp only
    by_cases ho : o.replaceDeclTags = true
    · rw [if_pos ho]
      obtain ⟨o2, sb2, h2⟩ := add_total sb1 declTagPlaceholder (by decide)
      exact ⟨_, _, _, by rw [h2], by simp [deflateInt, put32_length, lower, ho, dataLen]⟩
    · rw [if_neg ho]
      simp only [lower, if_neg ho] at hid hs ⊢
      obtain ⟨b, hb⟩ := Option.isSome_iff_exists.1 (hid t (by simp [fixOrder]))
      obtain ⟨o2, sb2, h2⟩ := add_total sb1 v (hs v (by simp [strings]))
      exact ⟨_, _, _, by simp only [hb, h2]; rfl, by simp [put32_length, dataLen]⟩
  | typeTag t v =>
    dsimp only
    by_cases ho : o.replaceTypeTags = true
    · rw [if_pos ho]
      simp only [lower, if_pos ho] at hid hs ⊢
      obtain ⟨r, s, h⟩ := ref_total idOf ⟨off, 0, 0⟩ kindConst t sb1 (hid t (by simp [fixOrder]))
      exact ⟨_, _, _, h, rfl⟩
    · rw [if_neg ho]
      simp only [lower, if_neg ho] at hid hs ⊢
      obtain ⟨b, hb⟩ := Option.isSome_iff_exists.1 (hid t (by simp [fixOrder]))
      obtain ⟨o2, sb2, h2⟩ := add_total sb1 v (hs v (by simp [strings]))
      exact ⟨_, _, _, by simp only [hb, h2]; rfl, by simp [dataLen]⟩
end deflate

variable {R : Type} [DecidableEq R]

theorem nodup_length_le {α : Type} [DecidableEq α] : ∀ (l m : List α), l.Nodup → (∀ x ∈ l, x ∈ m) → l.length ≤ m.length
  | [], m, _, _ => by simp
  | x :: l, m, hn, h => by
    rw [List.nodup_cons] at hn
    have hx := h x (by simp)
    have := nodup_length_le l (m.erase x) hn.2 (by
      intro y hy
      refine (List.mem_erase_of_ne ?_).2 (h y (by simp [hy]))
      rintro rfl; exact hn.1 hy)
    rw [List.length_erase_of_mem hx] at this
    have := List.length_pos_of_mem hx
    simp; omega

theorem assignIDs_total (g : Graph R) (V done : List (TRef R)) (hV : V.length < 2 ^ 32) : ∀ (ts : List (TRef R)) (e : Enc R),
    (done ++ e.pending).Nodup → Numbers (List.lookup · e.ids) (done ++ e.pending) → e.lastID.toNat = (done ++ e.pending).length →
    (∀ t ∈ done ++ e.pending, t ∈ V) → (∀ t ∈ ts, t ∈ V) → ∃ e', assignIDs g ts e = some e'
  | [], e, _, _, _, _, _ => ⟨e, rfl⟩
  | t :: ts, e, h1, h2, h3, h4, h5 => by
    unfold assignIDs
    split
    · exact assignIDs_total g V done hV ts e h1 h2 h3 h4 (fun t ht => h5 t (by simp [ht]))
    split
    · exact assignIDs_total g V done hV ts e h1 h2 h3 h4 (fun t ht => h5 t (by simp [ht]))
    rename_i hnone
    have hn : t ∉ done ++ e.pending := by
      intro hm
      obtain ⟨id, hid⟩ := numbers_mem h2 hm
      exact hnone (by rw [show e.ids.lookup t = some id from hid]; rfl)
    have hnd : (done ++ (e.pending ++ [t])).Nodup := by
      rw [← List.append_assoc]
      rw [List.nodup_append]
      refine ⟨h1, by simp, ?_⟩
      intro a ha b hb e
      simp at hb; subst hb; subst e; exact hn ha
    have hsub : ∀ x ∈ done ++ (e.pending ++ [t]), x ∈ V := by
      intro x hx
      rw [← List.append_assoc, List.mem_append] at hx
      rcases hx with hx | hx
      · exact h4 x hx
      · simp at hx; subst hx; exact h5 x (by simp)
    have hlen := nodup_length_le _ _ hnd hsub
    have hlast : e.lastID.toNat + 1 < 2 ^ 32 := by
      rw [h3]; simp at hlen ⊢; omega
    have hadd : (e.lastID + 1).toNat = e.lastID.toNat + 1 := by rw [BitVec.toNat_add]; exact Nat.mod_eq_of_lt hlast
    rw [if_neg (by rw [BitVec.lt_def, hadd]; omega)]
    refine assignIDs_total g V done hV ts _ hnd ?_ ?_ hsub (fun t ht => h5 t (by simp [ht]))
    · have hq : (e.ids.lookup t) = none := by
        cases hq : e.ids.lookup t with
        | none => rfl
        | some => rw [hq] at hnone; exact absurd rfl hnone
      have := numbers_snoc e.ids (done ++ e.pending) t h2 hq (by rw [← h3]; exact hlast)
      rw [← h3, ← hadd, List.append_assoc, BitVec.ofNat_toNat, BitVec.setWidth_eq] at this
      exact this
    · dsimp only
      rw [hadd, h3]; simp; omega

theorem allocateIDs_total (g : Graph R) (V done : List (TRef R)) (hV : V.length < 2 ^ 32) (hc : Closed (children g) V) (fuel : Nat) (hf : V.length < fuel) (root : TRef R) (e : Enc R)
    (hr : root ∈ V) (h1 : (done ++ e.pending).Nodup) (h2 : Numbers (List.lookup · e.ids) (done ++ e.pending)) (h3 : e.lastID.toNat = (done ++ e.pending).length)
    (h4 : ∀ t ∈ done ++ e.pending, t ∈ V) : ∃ e', allocateIDs g fuel root e = some e' := by
  have hun : unvisited V e.visited < fuel := Nat.lt_of_le_of_lt (List.length_filter_le ..) hf
  obtain ⟨⟨out, vis⟩, hv⟩ := visit_total (children g) V hc fuel root e.visited hr hun
  unfold allocateIDs
  rw [hv]
  apply assignIDs_total g V done hV out { e with visited := vis } h1 h2 h3 h4
  intro t ht
  obtain ⟨r, hr', hrt⟩ := (visit_visited (children g) _ _ _ _ _ hv).reach t ht
  simp at hr'; subst hr'
  exact reach_closed (children g) V hc hrt hr

/-- A type that can be written. -/
structure Good (o : Opts) (g : Graph R) (t : TRef R) : Prop where
  name : 0#8 ∉ (extGraph g t).name
  strs : ∀ s ∈ strings (lower o (placeholderOf t) (extGraph g t)), 0#8 ∉ s
  cyc : ∀ u, extGraph g t ≠ .cycle u
  enum : ∀ nm s sg vs, extGraph g t = .enum nm s sg vs → s ≠ 8 → ∀ v ∈ vs, enumFits sg v.value = true
  exported : ∀ r, t = .obj r → ∀ x v i, g r ≠ .declTag x v i

theorem fix_ph (o : Opts) (g : Graph R) (r q : R) (h : TRef.ph q ∈ fixOrder (lower o (.ph r) ((g r).map .obj))) :
    ∃ nm sg vs, g r = .enum nm 8 sg vs ∧ o.replaceEnum64 = true := by
  cases hg : g r with
  | enum nm s sg vs =>
    rw [hg] at h
    simp only [Node.map, lower] at h
    split at h
    · rename_i ho
      split at h
      · rename_i h8; exact ⟨nm, sg, vs, by rw [h8], ho⟩
      · simp [fixOrder] at h
    · simp [fixOrder] at h
  | declTag a b c =>
    rw [hg] at h
    simp only [Node.map, lower] at h
    split at h <;> simp [fixOrder] at h
  | typeTag a b =>
    rw [hg] at h
    simp only [Node.map, lower] at h
    split at h <;> simp [fixOrder] at h
  | _ => rw [hg] at h; simp [Node.map, lower, fixOrder, untag] at h

theorem deflatePending_total (o : Opts) (bo : ByteOrder) (g : Graph R) (V : List (TRef R)) (hV : V.length < 2 ^ 32) (hc : Closed (children g) V)
    (hph : ∀ r, TRef.obj r ∈ V → TRef.ph r ∈ V) (hgood : ∀ t ∈ V, extGraph g t ≠ .void → Good o g t) (fuel : Nat) (hf : V.length < fuel) :
    ∀ (n : Nat) (done : List (TRef R)) (e : Enc R), EInv g done e → TInv g done e → (∀ t ∈ done ++ e.pending, t ∈ V) → V.length ≤ n + done.length →
      ∃ recs e', deflatePending o bo g fuel n e = some (recs, e') ∧ (∀ x ∈ recs, x.1 ∈ V) ∧
        ∀ x ∈ recs, x.2.length = 12 + dataLen (lower o (placeholderOf x.1) (extGraph g x.1)) := by
  intro n
  induction n with
  | zero =>
    intro done e h1 h2 h3 h4
    unfold deflatePending
    cases hp : e.pending with
    | nil => exact ⟨_, _, rfl, by simp, by simp⟩
    | cons root pending =>
      exfalso
      have := nodup_length_le _ _ h1.nodup h3
      rw [hp] at this
      simp at this
      omega
  | succ n ih =>
    intro done e h1 h2 h3 h4
    unfold deflatePending
    cases hp : e.pending with
    | nil => exact ⟨_, _, rfl, by simp, by simp⟩
    | cons root pending =>
      dsimp only
      have hassoc : done ++ root :: pending = (done ++ [root]) ++ pending := by simp
      have hrV : root ∈ V := h3 root (by rw [hp]; simp)
      have i1 := h1.nodup; have i2 := h1.num; have i3 := h1.last; have i4 := h3
      rw [hp, hassoc] at i1 i2 i3 i4
      obtain ⟨e1, ha⟩ := allocateIDs_total g V (done ++ [root]) hV hc fuel hf root { e with pending := pending } hrV i1 i2 i3 i4
      rw [ha]; dsimp only
      obtain ⟨k1, new1, hn1, hr1⟩ := deflatePending_alloc' g fuel root pending done e e1 hp h1 ha
      have v1 : ∀ t ∈ (done ++ [root]) ++ e1.pending, t ∈ V := by
        intro t ht
        rw [hn1, ← List.append_assoc, List.mem_append] at ht
        rcases ht with ht | ht
        · exact i4 t ht
        · exact reach_closed (children g) V hc (hr1 t ht) hrV
      have t0 : TInv g (done ++ [root]) { e with pending := pending } := by
        refine ⟨h2.ok, ?_⟩
        have := h2.ord
        rw [hp, hassoc] at this
        exact this
      have t1 := allocateIDs_tags g fuel root (done ++ [root]) { e with pending := pending } e1 i2 t0 (by
        rintro p w i k rfl
        exact h2.root h1.closed p w i k (by rw [hp]; simp)) ha
      have hplace : ∃ e2, allocatePlaceholder o g fuel root e1 = some e2 ∧ TInv g (done ++ [root]) e2 := by
        unfold allocatePlaceholder
        cases root with
        | obj r =>
          dsimp only
          split
          · split
            · obtain ⟨e2, hb⟩ := allocateIDs_total g V (done ++ [TRef.obj r]) hV hc fuel hf (.ph r) e1 (hph r hrV) k1.nodup k1.num k1.last v1
              exact ⟨e2, hb, allocateIDs_tags g fuel _ _ e1 e2 k1.num t1 (by rintro p w i k ⟨⟩) hb⟩
            · exact ⟨e1, rfl, t1⟩
          · exact ⟨e1, rfl, t1⟩
        | _ => exact ⟨e1, rfl, t1⟩
      obtain ⟨e2, hb, t2⟩ := hplace
      rw [hb]; dsimp only
      obtain ⟨k2, _, _, ⟨new2, hn2, hr2⟩, hphs⟩ := allocatePlaceholder_spec o g fuel root (done ++ [root]) e1 e2 k1 hb
      have v2 : ∀ t ∈ (done ++ [root]) ++ e2.pending, t ∈ V := by
        intro t ht
        rw [hn2, ← List.append_assoc, List.mem_append] at ht
        rcases ht with ht | ht
        · exact v1 t ht
        · obtain ⟨_, r, rfl, rfl⟩ := hr2 t ht
          exact hph r hrV
      have hnv : extGraph g root ≠ .void := h1.nonvoid root (by rw [hp]; simp)
      have good := hgood root hrV hnv
      have hvis : root ∈ e2.visited := k2.wrote root (by simp)
      have hids : ∀ u, (extGraph g u ≠ .void → u ∈ (done ++ [root]) ++ e2.pending) → (e2.id g u).isSome := by
        intro u hu
        unfold Enc.id
        split
        · rfl
        · rename_i hv
          obtain ⟨id, hid⟩ := numbers_mem k2.num (hu hv)
          replace hid : List.lookup u e2.ids = some id := hid
          rw [hid]; rfl
      have hid : ∀ t ∈ fixOrder (lower o (placeholderOf root) (extGraph g root)), (e2.id g t).isSome := by
        intro u hu
        apply hids
        intro hv
        cases root with
        | obj r =>
          rcases Layout.fix_target r u hu (good.exported r rfl) with rfl | ⟨x, rfl, hx⟩
          · obtain ⟨nm, sg, vs, hg, ho⟩ := fix_ph o g r r hu
            exact hphs r nm sg vs rfl hg ho
          · exact k2.seen _ (k2.closed _ hvis _ ((children_refs g r x).2 hx)) hv
        | tag p v i k =>
          simp only [extGraph, lower] at hu
          split at hu
          · simp [fixOrder] at hu
          · simp only [fixOrder, List.mem_singleton] at hu
            subst hu
            exact k2.seen _ (t2.ok p v i k hvis) hv
        | ph r =>
          simp only [extGraph] at hu
          cases hg : g r <;> rw [hg] at hu <;> simp [lower, fixOrder] at hu
      obtain ⟨raw, data, sb, hd, hlen⟩ := deflateType_total o bo (e2.id g) (placeholderOf root) (extGraph g root) e2.strings hid good.name good.strs hnv good.cyc good.enum
      rw [hd]; dsimp only
      obtain ⟨recs, e3, hrest, hvs, hls⟩ := ih (done ++ [root]) { e2 with strings := sb } ⟨k2.nodup, k2.num, k2.last, k2.nonvoid, k2.closed, k2.seen, k2.wrote⟩
        ⟨t2.ok, t2.ord⟩ v2 (by simp; omega)
      rw [hrest]
      refine ⟨_, _, rfl, ?_, ?_⟩
      · intro x hx
        simp only [List.mem_cons] at hx
        rcases hx with rfl | hx
        · exact hrV
        · exact hvs x hx
      · intro x hx
        simp only [List.mem_cons] at hx
        rcases hx with rfl | hx
        · simp [encode_length, hlen]
        · exact hls x hx

end Ebpf.Btf
