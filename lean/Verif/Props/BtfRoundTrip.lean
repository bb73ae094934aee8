import Verif.Props.BtfReadable
import Verif.Props.BtfBlob
/-! # C26: marshal, load, read: the types come back -/
namespace Ebpf.Btf
open BtfSpec
set_option linter.unusedSectionVars false
variable {R : Type} [DecidableEq R]

theorem compTags_index (p : R) : ∀ (l : List (List Bytes)) (c : Nat) (q : R) (v : Bytes) (i : Int) (k : Nat), TRef.tag q v i k ∈ compTags p c l → (c : Int) ≤ i ∧ i < c + l.length
  | [], c, q, v, i, k, h => by simp [compTags] at h
  | ts :: l, c, q, v, i, k, h => by
    simp only [compTags, List.mem_append] at h
    rcases h with h | h
    · obtain ⟨v', k', h1, h2⟩ := tagRefsFrom_mem _ _ _ _ _ h
      cases h1
      simp; omega
    · obtain ⟨h1, h2⟩ := compTags_index p l (c + 1) q v i k h
      simp at h1 h2 ⊢; omega

theorem children_no_ph (g : Graph R) (t : TRef R) (r : R) : TRef.ph r ∉ children g t := by
  have ht : ∀ (p : R) i ts, TRef.ph r ∉ tagRefs p i ts := by intro p i ts; simp [tagRefs, List.mem_mapIdx]
  have hm : ∀ (p : R) ms, TRef.ph r ∉ memberRefs p ms := by
    intro p ms
    simp only [memberRefs, List.mem_flatten, List.mem_mapIdx, not_exists, not_and]
    rintro l ⟨i, hi, rfl⟩
    simp [ht]
  cases t with
  | obj q =>
    simp only [children, childrenObj]
    cases g q <;> simp [ht, hm]
    rename_i pts
    simp only [paramTagRefs, List.mem_flatten, List.mem_mapIdx, not_exists, not_and]
    rintro l ⟨i, hi, rfl⟩
    exact ht _ _ _
  | _ => simp [children]

theorem reach_no_ph (g : Graph R) {t u : TRef R} (h : Reach (children g) t u) (r : R) (hu : u = .ph r) : t = .ph r := by
  induction h with
  | refl => exact hu
  | step h1 _ ih => exact absurd (ih hu ▸ h1) (children_no_ph g _ r)

theorem reach_closed' (g : Graph R) (S : List (TRef R)) (h : ∀ x ∈ S, ∀ y ∈ children g x, y ∈ S) {x y : TRef R} (hr : Reach (children g) x y) (hx : x ∈ S) : y ∈ S :=
  reach_closed (children g) S h hr hx

/-- The result of writing the pending types of a new builder. -/
structure Output (o : Opts) (bo : ByteOrder) (g : Graph R) (b : TypeBuilder R) (recs : List (TRef R × Bytes)) (e : Enc R) : Prop where
  layout : Layout o g (recs.map (·.1)) (idD (e.id g))
  types : ∃ out : List (TRef R × BtfType × Bytes), recs = out.map (fun x => (x.1, x.2.1.encode bo ++ x.2.2)) ∧
    ∀ x ∈ out, FileRec bo (e.id g) e.strings (lower o (placeholderOf x.1) (extGraph g x.1)) x.2.1 x.2.2
  strings : ∃ order, Holds e.strings order ∧ ∀ s ∈ order, s = [] ∨ ∃ t ∈ recs.map (·.1), s ∈ strings (lower o (placeholderOf t) (extGraph g t))
  added : ∀ t ∈ b.types, .obj t ∈ recs.map (·.1)
  closed : ∀ r, .obj r ∈ recs.map (·.1) → ∀ u, Reach (children g) (.obj r) u → u ∈ recs.map (·.1) ∨ extGraph g u = .void

theorem output_of (o : Opts) (bo : ByteOrder) (g : Graph R) (b : TypeBuilder R) (fuel n : Nat) (recs : List (TRef R × Bytes)) (e : Enc R)
    (hb : BInv g b) (hstr : b.strings = none) (hl : b.types.length < 2 ^ 32)
    (hw : ∀ r, g r ≠ .void → (∃ t ∈ b.types, Reach (children g) (.obj t) (.obj r)) → Writable g r)
    (h : deflatePending o bo g fuel n (initEnc b b.types) = some (recs, e)) : Output o bo g b recs e := by
  have i0 := einv_init g b hb hl
  have w := deflatePending_spec o bo g fuel n [] _ e recs i0 h
  have inv := w.inv
  rw [List.nil_append] at inv
  have t0 : TInv g [] (initEnc b b.types) := by
    constructor
    · intro p v i k hm; simp [initEnc] at hm
    · intro r
      simp only [initEnc, List.nil_append, List.not_mem_nil, if_false, List.filter_eq_nil_iff, List.mem_map]
      rintro _ ⟨t, _, rfl⟩
      simp [isTagOf]
  have tinv := deflatePending_tags o bo g fuel n [] _ e recs i0 t0 h
  rw [List.nil_append] at tinv
  generalize hord : recs.map (·.1) = order at *
  have hinv := inv
  have hpe : order ++ e.pending = order := by rw [w.empty]; simp
  have hnd := inv.nodup; rw [hpe] at hnd
  have hnum := inv.num; rw [hpe] at hnum
  have hlast := inv.last; rw [hpe] at hlast
  have hnv := inv.nonvoid; rw [hpe] at hnv
  have hseen := inv.seen; rw [hpe] at hseen
  have htord := tinv.ord; rw [hpe] at htord
  have hsize : order.length < 2 ^ 32 := by rw [← hlast]; exact e.lastID.isLt
  have hpend : (initEnc b b.types).pending = b.types.map .obj := rfl
  have hobj : ∀ r, TRef.obj r ∈ order → ∃ t ∈ b.types, Reach (children g) (.obj t) (.obj r) := by
    intro r hr
    rcases w.reach _ hr with ⟨q, hq, hru⟩ | ⟨_, _, _, _, e4, _⟩
    · rw [hpend] at hq; simp at hq
      obtain ⟨t, ht, rfl⟩ := hq
      exact ⟨t, ht, hru⟩
    · cases e4
  have hvoid : ∀ r, extGraph g (.obj r) = .void ↔ g r = .void := by
    intro r; simp only [extGraph]; cases g r <;> simp [Node.map]
  have hwr : ∀ r, TRef.obj r ∈ order → Writable g r := fun r hr => hw r (fun e => hnv _ hr ((hvoid r).2 e)) (hobj r hr)
  have hcl : ∀ r, TRef.obj r ∈ order → ∀ c ∈ children g (.obj r), extGraph g c ≠ .void → c ∈ order :=
    fun r hr c hc hv => hseen c (inv.closed _ (inv.wrote _ hr) c hc) hv
  have hparent : ∀ p v i k, TRef.tag p v i k ∈ order → TRef.obj p ∈ order ∧ TRef.tag p v i k ∈ tagsOfObj g p := by
    intro p v i k ht
    have h1 : TRef.tag p v i k ∈ order.filter (isTagOf p) := by rw [List.mem_filter]; exact ⟨ht, by simp [isTagOf]⟩
    rw [htord p] at h1
    split at h1
    · rename_i hv
      refine ⟨hseen _ hv ?_, h1⟩
      rw [ne_eq, hvoid]
      intro e
      simp [tagsOfObj, childrenObj, e] at h1
    · cases h1
  have hfits : ∀ t ∈ order, Fits (extGraph g t) := by
    intro t ht
    cases t with
    | obj r =>
      have := (hwr r ht).fits
      simp only [extGraph]
      cases hg : g r <;> rw [hg] at this <;> simp only [Node.map, Fits, MembersFit, List.length_map] at this ⊢ <;> try exact this
      all_goals
        refine ⟨this.1, ?_⟩
        rcases this.2 with h | h
        · left; intro m hm; simp at hm; obtain ⟨m, hm, rfl⟩ := hm; exact h m hm
        · right; intro m hm; simp at hm; obtain ⟨m, hm, rfl⟩ := hm; exact h m hm
    | tag p v i k =>
      obtain ⟨hp, hm⟩ := hparent p v i k ht
      simp only [extGraph, Fits]
      rw [tagsOfObj_eq] at hm
      have hf := (hwr p hp).fits
      have hown : ∀ (ts : List Bytes) c, TRef.tag p v i k ∈ tagRefsFrom p (-1) c ts → i = -1 := by
        intro ts c hm
        obtain ⟨_, _, h1, _⟩ := tagRefsFrom_mem _ _ _ _ _ hm
        cases h1; rfl
      cases hg : g p <;> rw [hg] at hm hf <;> simp only [List.mem_append, List.not_mem_nil] at hm <;> simp only [Fits, MembersFit] at hf
      · rcases hm with hm | hm
        · have := compTags_index p _ _ _ _ _ _ hm
          simp at this; omega
        · have := hown _ _ hm; omega
      · rcases hm with hm | hm
        · have := compTags_index p _ _ _ _ _ _ hm
          simp at this; omega
        · have := hown _ _ hm; omega
      · have := hown _ _ hm; omega
      · rename_i nm x l ts pts
        rcases hm with hm | hm
        · have hx : protoLen (g x) < 65536 := by
            by_cases hv : g x = .void
            · simp [hv, protoLen]
            · have hxo := hcl p hp (.obj x) (by rw [children_refs, hg]; simp [Btf.refs]) (by rw [ne_eq, hvoid]; exact hv)
              have hfx := (hwr x hxo).fits
              cases hgx : g x <;> simp only [protoLen] <;> try omega
              rw [hgx] at hfx
              simpa [Fits] using hfx
          have := compTags_index p _ _ _ _ _ _ hm
          simp at this; omega
        · have := hown _ _ hm; omega
      · have := hown _ _ hm; omega
    | ph r =>
      have hn := hnv _ ht
      rcases w.reach _ ht with ⟨q, hq, hru⟩ | ⟨q, hq, s, rfl, he, hq'⟩
      · rw [hpend] at hq; simp at hq
        obtain ⟨t, _, rfl⟩ := hq
        have := reach_no_ph g hru r rfl
        cases this
      · obtain ⟨r', nm, sg, vs, e1, e2, e3⟩ := hq'
        cases e1
        simp only [extGraph, e2, Fits]
        constructor
        · decide
        · split <;> decide
  have hrecs := deflatePending_records o bo g fuel n _ e recs h (by rw [hord]; exact hfits)
  obtain ⟨_, _, out, hout, hfile⟩ := hrecs
  subst hord
  refine ⟨?_, ⟨out, hout, hfile⟩, ?_, ?_, ?_⟩
  · constructor
    · exact hsize
    · exact hnd
    · intro i t ht
      have := hnum.1 i t ht
      simp only [idD, Enc.id]
      rw [if_neg (hnv t (List.mem_of_getElem? ht))]
      replace this : List.lookup t e.ids = _ := this
      rw [this]; rfl
    · intro t ht
      simp only [idD, Enc.id]; rw [if_pos ht]; rfl
    · exact hnv
    · intro t ht u hu
      by_cases hv : extGraph g u = .void
      · exact .inr hv
      · left
        rw [List.mem_map] at ht
        obtain ⟨x, hx, rfl⟩ := ht
        rw [hout, List.mem_map] at hx
        obtain ⟨y, hy, rfl⟩ := hx
        have := (hfile y hy).refs u hu
        simp only [Enc.id] at this
        rw [if_neg hv] at this
        obtain ⟨id, hid⟩ := Option.isSome_iff_exists.1 this
        exact List.mem_of_getElem? (hnum.2 u id hid).2
    · intro r hr
      rw [htord r, if_pos (inv.wrote _ hr)]
    · exact hwr
    · intro r t hr
      exact (hwr r hr).acyclic t
    · exact fun p v i k h => (hparent p v i k h).1
  · obtain ⟨ss, ⟨os, ha⟩, hs⟩ := deflatePending_adds o bo g fuel n _ e recs h
    have h0 : Holds (initEnc b b.types).strings [[]] := by simp only [initEnc, hstr, Option.getD_none]; exact holds_new
    obtain ⟨ord', h1, _, _, h2, _⟩ := holds_addAll ss _ _ _ _ h0 ha
    refine ⟨ord', h1, ?_⟩
    intro s hs'
    rcases (h2 s).1 hs' with h | h
    · left; simpa using h
    · exact hs s h
  · intro t ht
    obtain ⟨tl, htl⟩ := w.pre
    rw [← htl, hpend]
    exact List.mem_append_left _ (by simpa using ht)
  · intro r hr u hru
    by_cases hv : extGraph g u = .void
    · exact .inr hv
    · exact .inl (hseen u (reach_closed' g _ inv.closed hru (inv.wrote _ hr)) hv)

/-! ## Reading -/

/-- A history of `TypeByID` calls on a readable blob. -/
theorem run_works {nodes : List (Node ID)} {d : Dec} (hd : Describes d nodes) (hr : Readable nodes) (fuel : Nat) (hf : nodes.length < fuel) : ∀ (q : List ID) (s : DState),
    Inv nodes [] s → ∃ s' rs, d.run fuel s q = (s', rs) ∧ Inv nodes [] s' ∧ Frame s s' ∧ rs.length = q.length ∧
      ∀ (i : Nat) id, q[i]? = some id → if id.toNat ≤ nodes.length then rs[i]? = some (some (addr s' id)) ∧ Known s' id else rs[i]? = some none
  | [], s, hi => ⟨s, [], rfl, hi, Frame.refl s, rfl, by simp⟩
  | id :: q, s, hi => by
    have hm : missing nodes.length s < fuel := Nat.lt_of_le_of_lt (by unfold missing; have := List.countP_le_length (p := fun i => (s.types.lookup (BitVec.ofNat 32 (i + 1))).isNone) (l := List.range nodes.length); simpa using this) hf
    by_cases hb : id.toNat ≤ nodes.length
    · obtain ⟨s1, a, h1, i1⟩ := inflate_works hd hr fuel [] s id hi (by simp) hb hm
      obtain ⟨s2, rs, h2, i2, f2, l2, c2⟩ := run_works hd hr fuel hf q s1 i1.inv
      refine ⟨s2, some a :: rs, by simp only [Dec.run, h1, h2], i2, i1.frame.trans f2, by simp [l2], ?_⟩
      intro i id' hid
      cases i with
      | zero =>
        simp at hid; subst hid
        rw [if_pos hb]
        refine ⟨?_, f2.known i1.known⟩
        rw [i1.addr_, addr_mono f2.mono i1.known]; rfl
      | succ i =>
        simp at hid
        have := c2 i id' hid
        simpa using this
    · have h0 : id ≠ 0 := by rintro rfl; simp at hb
      have h1 : d.inflate fuel s id = (s, none) := by
        cases fuel with
        | zero => omega
        | succ fuel =>
          unfold Dec.inflate
          rw [if_neg h0]
          cases hl : s.types.lookup id with
          | some a => exact absurd (hi.bound id a hl).2.2.2 hb
          | none => dsimp only; rw [hd.beyond id (by omega)]
      obtain ⟨s2, rs, h2, i2, f2, l2, c2⟩ := run_works hd hr fuel hf q s hi
      refine ⟨s2, none :: rs, by simp only [Dec.run, h1, h2], i2, f2, by simp [l2], ?_⟩
      intro i id' hid
      cases i with
      | zero =>
        simp at hid; subst hid
        rw [if_neg hb]; rfl
      | succ i =>
        simp at hid
        have := c2 i id' hid
        simpa using this

theorem inv_init (nodes : List (Node ID)) : Inv nodes [] DState.init := by
  constructor <;> simp [DState.init]

theorem mem_targets (n : Node (TRef R)) (u : TRef R) : u ∈ targets n ↔ u ∈ fixOrder n := by
  cases n <;> simp [targets, fixOrder, or_comm]

namespace Layout
variable {o : Opts} {g : Graph R} {order : List (TRef R)} {idf : TRef R → ID} (L : Layout o g order idf)
include L

omit L in
theorem seen_targets (t : TRef R) : fixOrder (seen o g t) = fixOrder (lower o (placeholderOf t) (extGraph g t)) := by
  cases t with
  | obj r =>
    simp only [seen, extGraph, placeholderOf]
    cases hg : g r <;> simp [Node.map, lower, fixOrder, Function.comp_def, untag]
  | tag => rfl
  | ph => rfl

omit L in
theorem seen_cycle (t : TRef R) (h : ∀ u, extGraph g t ≠ .cycle u) (u : TRef R) : seen o g t ≠ .cycle u := by
  cases t with
  | obj r =>
    have := lower_cycle o (.ph r) _ h u
    simp only [extGraph, seen] at *
    cases hg : g r <;> rw [hg] at this <;> simp only [Node.map, ne_eq, reduceCtorEq, not_false_eq_true] at this ⊢ <;> exact this
  | tag p v i k => exact lower_cycle o (.tag p v i k) _ h u
  | ph r => exact lower_cycle o (.ph r) _ h u

omit L in
theorem seen_void (t : TRef R) (h : extGraph g t = .void) : seen o g t = .void := by
  cases t with
  | obj r =>
    simp only [extGraph] at h
    cases hg : g r <;> rw [hg] at h <;> simp [Node.map] at h
    simp [seen, hg, Node.map, lower]
  | tag => simp [extGraph] at h
  | ph r => simp only [seen, h]; rfl

/-- What a reader has read is a copy of what was written. -/
theorem copyOf {s : DState} (hi : Inv (written o g order idf) [] s) :
    CopyOf (seen o g) (fun t => extGraph g t = .void ∨ (t ∈ order ∧ Known s (idf t))) (fun t => addr s (idf t)) s.heap where
  copy := by
    rintro t (ht | ⟨ht, hk⟩)
    · rw [L.zero t ht, addr, if_pos rfl, hi.void, seen_void t ht]; rfl
    · have h0 := (L.id_bound ht).1
      obtain ⟨a, ha⟩ := Option.isSome_iff_exists.1 (hk.resolve_left h0)
      obtain ⟨F, h1, h2, _⟩ := hi.done _ a (by simp) ha
      rw [L.final_seen ht] at h1
      cases h1
      rw [addr, if_neg h0, ha, Option.getD_some, h2]
      congr 1
      generalize seen o g t = n
      cases n <;> simp [Node.map, Function.comp_def]
  closed := by
    rintro t ht u hu
    rw [mem_targets, seen_targets] at hu
    rcases ht with ht | ⟨ht, hk⟩
    · rw [ht] at hu; simp [lower, fixOrder] at hu
    · rcases L.refs t ht u hu with h | h
      · right
        refine ⟨h, ?_⟩
        have h0 := (L.id_bound ht).1
        obtain ⟨a, ha⟩ := Option.isSome_iff_exists.1 (hk.resolve_left h0)
        obtain ⟨F, h1, h2, h3⟩ := hi.done _ a (by simp) ha
        apply h3
        unfold deps
        rw [L.node ht]
        simp only [List.mem_append, fixOrder_map, List.mem_map]
        exact .inl ⟨u, hu, rfl⟩
      · exact .inl h
  inj := by
    rintro t u ht hu he
    have key : ∀ t, (t ∈ order ∧ Known s (idf t)) → ∃ a, s.types.lookup (idf t) = some a ∧ addr s (idf t) = a ∧ 0 < a := by
      rintro t ⟨ht, hk⟩
      have h0 := (L.id_bound ht).1
      obtain ⟨a, ha⟩ := Option.isSome_iff_exists.1 (hk.resolve_left h0)
      exact ⟨a, ha, by rw [addr, if_neg h0, ha]; rfl, (hi.bound _ _ ha).1⟩
    rcases ht with ht | ht <;> rcases hu with hu | hu
    · exact .inr ⟨seen_void t ht, seen_void u hu⟩
    · obtain ⟨a, h1, h2, h3⟩ := key u hu
      rw [L.zero t ht, h2, addr, if_pos rfl] at he; omega
    · obtain ⟨a, h1, h2, h3⟩ := key t ht
      rw [L.zero u hu, h2, addr, if_pos rfl] at he; omega
    · obtain ⟨a, h1, h2, h3⟩ := key t ht
      obtain ⟨b, k1, k2, k3⟩ := key u hu
      rw [h2, k2] at he; subst he
      exact .inl (L.id_inj ht.1 hu.1 (hi.inj _ _ _ h1 k1))
end Layout

end Ebpf.Btf
