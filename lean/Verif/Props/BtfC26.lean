import Verif.Props.BtfMarshalTotal
/-! # C26: the round trip -/
namespace Ebpf.Btf
open BtfSpec
set_option linter.unusedSectionVars false
variable {R : Type} [DecidableEq R]

theorem addOne_nodup (g : Graph R) (P : R → Prop) (U : List R) (hP : ∀ x, P x → x ∈ U) (hU : U.length < 2 ^ 32) (b : TypeBuilder R) (t : R) (hb : BInv g b)
    (hn : b.types.Nodup) (hs : ∀ x ∈ b.types, P x) (ht : P t) : (b.addOne t).2.types.Nodup ∧ (∀ x ∈ (b.addOne t).2.types, P x) ∧ (b.addOne t).2.strings = b.strings := by
  unfold TypeBuilder.addOne
  cases hl : b.stableIDs.lookup t with
  | some id => exact ⟨hn, hs, rfl⟩
  | none =>
    have hlen := nodup_length_le b.types U hn (fun x hx => hP x (hs x hx))
    have hnot : t ∉ b.types := by
      intro hm
      obtain ⟨i, hi, he⟩ := List.getElem_of_mem hm
      have := hb.fwd i t (by rw [List.getElem?_eq_getElem hi, he]) (by omega)
      rw [hl] at this; cases this
    have h1 : (b.types ++ [t]).Nodup := by
      rw [List.nodup_append]
      refine ⟨hn, by simp, ?_⟩
      intro a ha c hc e
      simp at hc; subst hc; subst e; exact hnot ha
    have h2 : ∀ x ∈ b.types ++ [t], P x := by
      intro x hx
      rw [List.mem_append] at hx
      rcases hx with hx | hx
      · exact hs x hx
      · simp at hx; subst hx; exact ht
    dsimp only
    split
    · exact ⟨h1, h2, rfl⟩
    · exact ⟨h1, h2, rfl⟩

theorem addMany_nodup (g : Graph R) (P : R → Prop) (U : List R) (hP : ∀ x, P x → x ∈ U) (hU : U.length < 2 ^ 32) : ∀ (ts : List R) (b : TypeBuilder R), BInv g b →
    b.types.Nodup → (∀ x ∈ b.types, P x) → (∀ t ∈ ts, P t ∧ g t ≠ .void) →
    BInv g (b.addMany ts).2 ∧ (b.addMany ts).2.types.Nodup ∧ (∀ x ∈ (b.addMany ts).2.types, P x) ∧ (b.addMany ts).2.strings = b.strings
  | [], b, hb, hn, hs, _ => ⟨hb, hn, hs, rfl⟩
  | t :: ts, b, hb, hn, hs, ht => by
    have h1 := addOne_nodup g P U hP hU b t hb hn hs (ht t (by simp)).1
    have h2 := addOne_spec g b (b.addOne t).2 t (b.addOne t).1 hb (ht t (by simp)).2 rfl
    unfold TypeBuilder.addMany
    cases he : b.addOne t with
    | mk r b' =>
      rw [he] at h1 h2
      cases r with
      | none => exact ⟨h2.1, h1⟩
      | some id =>
        have := addMany_nodup g P U hP hU ts b' h2.1 h1.1 h1.2.1 (fun t hm => ht t (by simp [hm]))
        exact ⟨this.1, this.2.1, this.2.2.1, this.2.2.2.trans h1.2.2⟩

theorem qualified_refs (g : Graph R) (P : R → Prop) (hc : ∀ r, P r → ∀ x ∈ Btf.refs (g r), P x) (vars : List (VarSecinfo R)) (hv : ∀ v ∈ vars, P v.type) :
    ∀ t ∈ datasecQualified g vars, P t := by
  intro t ht
  simp only [datasecQualified, List.mem_filterMap] at ht
  obtain ⟨v, hm, he⟩ := ht
  cases hg : g v.type with
  | var nm x l ts =>
    rw [hg] at he
    have hx : P x := hc _ (hv v hm) x (by rw [hg]; simp [Btf.refs])
    dsimp only at he
    split at he <;> cases he <;> exact hx
  | _ => rw [hg] at he; cases he

theorem addAll_nodup (g : Graph R) (P : R → Prop) (U : List R) (hP : ∀ x, P x → x ∈ U) (hU : U.length < 2 ^ 32) (hc : ∀ r, P r → ∀ x ∈ Btf.refs (g r), P x) :
    ∀ (ts : List R) (b : TypeBuilder R), BInv g b → b.types.Nodup → (∀ x ∈ b.types, P x) → (∀ t ∈ ts, P t) →
    (addAllTypes g b ts).2.types.Nodup ∧ (∀ x ∈ (addAllTypes g b ts).2.types, P x) ∧ (addAllTypes g b ts).2.strings = b.strings
  | [], b, hb, hn, hs, _ => ⟨hn, hs, rfl⟩
  | t :: ts, b, hb, hn, hs, ht => by
    have hadd : (b.add g t).2.types.Nodup ∧ (∀ x ∈ (b.add g t).2.types, P x) ∧ (b.add g t).2.strings = b.strings := by
      have hone := addOne_nodup g P U hP hU b t hb hn hs (ht t (by simp))
      unfold TypeBuilder.add
      cases hg : g t with
      | void => exact ⟨hn, hs, rfl⟩
      | datasec nm sz vars =>
        dsimp only
        have hq := qualified_refs g P hc vars (fun v hv => hc t (ht t (by simp)) v.type (by rw [hg]; simp only [Btf.refs, List.mem_map]; exact ⟨v, hv, rfl⟩))
        have hm := addMany_nodup g P U hP hU (datasecQualified g vars) b hb hn hs (fun x hx => ⟨hq x hx, datasecQualified_nonvoid g vars x hx⟩)
        cases he : b.addMany (datasecQualified g vars) with
        | mk ok b' =>
          rw [he] at hm
          cases ok with
          | false => exact hm.2
          | true =>
            have := addOne_nodup g P U hP hU b' t hm.1 hm.2.1 hm.2.2.1 (ht t (by simp))
            exact ⟨this.1, this.2.1, this.2.2.trans hm.2.2.2⟩
      | _ => exact hone
    have a := add_spec g b (b.add g t).2 t (b.add g t).1 hb rfl
    have := addAll_nodup g P U hP hU hc ts (b.add g t).2 a.1 hadd.1 hadd.2.1 (fun t hm => ht t (by simp [hm]))
    simp only [addAllTypes]
    exact ⟨this.1, this.2.1, this.2.2.trans hadd.2.2⟩

theorem flat_recs (bo : ByteOrder) : ∀ (out : List (TRef R × BtfType × Bytes)),
    ((out.map fun x => (x.1, x.2.1.encode bo ++ x.2.2)).map (·.2)).flatten = flat bo (out.map (·.2))
  | [] => rfl
  | (t, raw, data) :: out => by
    have := flat_recs bo out
    simp only [List.map_cons, List.flatten_cons, flat, this, List.append_assoc]

/-- C26. Let `ts` be added to a new builder, where the types `ts` lead to are the finite set `U`, each can be represented in the wire format, and together they are not too
large. Then all `Add`s succeed, `Marshal` succeeds for any options, byte order and iteration order of maps, and loading the result succeeds. Any sequence of `TypeByID` calls on the result
finds each type under the ID `Add` returned for it, and nothing under IDs which were not used; and the types it returned are, at any time, a copy of the types
written, with the same sharing and the same cycles.

Partial: the full property also says that types which cannot be represented are rejected. The code does not do that, see `vlen_wraps` and `wide_int_becomes_bitfield`, so
the theorem assumes that they are representable (`Writable`). -/
theorem marshal_roundtrip_partial (o : Opts) (bo : ByteOrder) (g : Graph R) (ts U : List R) (shuffle : List (Bytes × BitVec 32) → List (Bytes × BitVec 32))
    (hts : ∀ t ∈ ts, t ∈ U) (hclosed : ∀ r ∈ U, ∀ x ∈ targets (g r), x ∈ U)
    (hw : ∀ r ∈ U, g r ≠ .void → Writable g r ∧ Storable (g r))
    (hsize : (U.map fun r => cost (g r)).sum + 1 < 2 ^ 32)
    (hshuffle : ∀ l, (shuffle l).Perm l) :
    ∃ N, ∀ fuel, N ≤ fuel → ∃ (blob : Bytes) (d : Dec) (idf : TRef R → ID),
      none ∉ (addAllTypes g .empty ts).1 ∧
      marshal o bo g fuel (addAllTypes g .empty ts).2 shuffle = some blob ∧
      loadRawSpec blob = some d ∧
      (∀ (i : Nat) t a, ts[i]? = some t → (addAllTypes g .empty ts).1[i]? = some (some a) → idf (.obj t) = a) ∧
      ∀ q : List ID, ∃ (K : TRef R → Prop) (f : TRef R → Nat),
        CopyOf (seen o g) K f (d.run fuel .init q).1.heap ∧
        ∀ (i : Nat) id, q[i]? = some id →
          (id = 0 ∧ ∃ a, (d.run fuel .init q).2[i]? = some (some a) ∧ (d.run fuel .init q).1.heap[a]? = some .void) ∨
          (id ≠ 0 ∧ ∃ t, Covered o g ts t ∧ idf t = id ∧ K t ∧ (d.run fuel .init q).2[i]? = some (some (f t))) ∨
          (id ≠ 0 ∧ (∀ t, Covered o g ts t → idf t ≠ id) ∧ (d.run fuel .init q).2[i]? = some none) := by
  have hexp : ∀ r ∈ U, ∀ t v i, g r ≠ .declTag t v i := by
    intro r hr t v i e
    exact (hw r hr (by rw [e]; simp)).1.exported t v i e
  have hrefs : ∀ r ∈ U, ∀ x ∈ Btf.refs (g r), x ∈ U := fun r hr x hx => hclosed r hr x ((refs_targets (g r) (hexp r hr) x).1 hx)
  have hcost := cost_sum o g U hexp
  have hVlen : (allRefs g U).length ≤ ((allRefs g U).map (weight o g)).sum := by
    generalize allRefs g U = V
    induction V with
    | nil => simp
    | cons t V ih =>
      have : 12 ≤ weight o g t := by unfold weight; omega
      simp; omega
  have hUlen : U.length < 2 ^ 32 := by
    have : U.length ≤ (U.map fun r => cost (g r)).sum := by
      clear hsize hcost hVlen hts hclosed hw hexp hrefs
      induction U with
      | nil => simp
      | cons t V ih =>
        have : 100 ≤ cost (g t) := by unfold cost; omega
        simp; omega
    omega
  -- the builder
  let P : R → Prop := fun r => r ∈ U ∧ ∃ a ∈ ts, Reach (children g) (.obj a) (.obj r)
  have hPc : ∀ r, P r → ∀ x ∈ Btf.refs (g r), P x := by
    rintro r ⟨hr, a, ha, hra⟩ x hx
    exact ⟨hrefs r hr x hx, a, ha, Reach.trans _ hra (.step ((children_refs g r x).2 hx) (.refl _))⟩
  have hn := addAll_nodup g P U (fun _ h => h.1) hUlen hPc ts .empty (binv_empty g) (by simp [TypeBuilder.empty]) (by simp [TypeBuilder.empty])
    (fun t ht => ⟨hts t ht, t, ht, .refl _⟩)
  have s := addAll_spec g ts .empty (binv_empty g)
  have hadd := add_ids g ts
  have hlen : (addAllTypes g .empty ts).2.types.length < 2 ^ 32 :=
    Nat.lt_of_le_of_lt (nodup_length_le _ U hn.1 (fun x hx => (hn.2.1 x hx).1)) hUlen
  have hsucc := add_succeeds g ts hlen
  have hids := fun fuel n recs e => marshal_ids o bo g ts fuel n recs e hlen
  have hmem : ∀ t ∈ ts, g t ≠ .void → t ∈ (addAllTypes g .empty ts).2.types := by
    intro t ht hv
    obtain ⟨i, hi, he⟩ := List.getElem_of_mem ht
    have hlen' : (addAllTypes g .empty ts).1.length = ts.length := by
      have : ∀ (ts : List R) (b : TypeBuilder R), (addAllTypes g b ts).1.length = ts.length := by
        intro ts
        induction ts with
        | nil => intro b; rfl
        | cons t ts ih => intro b; simp [addAllTypes, ih]
      exact this ts _
    have hget : (addAllTypes g .empty ts).1[i]? = some ((addAllTypes g .empty ts).1[i]'(by omega)) := List.getElem?_eq_getElem _
    cases hr : (addAllTypes g .empty ts).1[i]'(by omega) with
    | none => exact absurd (hr ▸ List.getElem_mem _) hsucc
    | some id =>
      rw [hr] at hget
      have := s.2.2.1 i t id (by rw [List.getElem?_eq_getElem hi, he]) hget
      rw [if_neg hv] at this
      exact List.mem_of_getElem? (s.1.bwd t id this).2
  generalize hB : (addAllTypes g .empty ts).2 = b at *
  have hstr : b.strings = none := hn.2.2
  have hreach : ∀ u, extGraph g u ≠ .void → ((∃ t ∈ b.types, Reach (children g) (.obj t) u) ↔ ∃ a ∈ ts, Reach (children g) (.obj a) u) := by
    intro u hu
    constructor
    · rintro ⟨t, ht, h⟩
      obtain ⟨_, a, ha, h'⟩ := hn.2.1 t ht
      exact ⟨a, ha, Reach.trans _ h' h⟩
    · rintro ⟨a, ha, h⟩
      refine ⟨a, hmem a ha ?_, h⟩
      intro e
      cases h with
      | refl => exact hu (by simp [extGraph, e, Node.map])
      | step h _ => simp [children, childrenObj, e] at h
  -- marshal
  have hVc := allRefs_closed g U hrefs
  have hi0 := einv_init g b s.1 hlen
  have ht0 : TInv g [] (initEnc b b.types) := by
    constructor
    · intro p v i k hm; simp [initEnc] at hm
    · intro r
      simp only [initEnc, List.nil_append, List.not_mem_nil, if_false, List.filter_eq_nil_iff, List.mem_map]
      rintro _ ⟨t, _, rfl⟩
      simp [isTagOf]
  refine ⟨(allRefs g U).length + 1, ?_⟩
  intro fuel hfuel
  obtain ⟨recs, e, hd, hrV, hrlen⟩ := deflatePending_total o bo g (allRefs g U) (by omega) hVc
    (fun r hr => (mem_allRefs g U (.ph r)).2 ((mem_allRefs g U (.obj r)).1 hr)) (good_of o g U hw) fuel (by omega) fuel [] (initEnc b b.types) hi0 ht0
    (by
      intro t ht
      simp only [initEnc, List.nil_append, List.mem_map] at ht
      obtain ⟨r, hr, rfl⟩ := ht
      exact (mem_allRefs g U (.obj r)).2 (hn.2.1 r hr).1)
    (by simp; omega)
  have out := output_of o bo g b fuel fuel recs e s.1 hstr hlen (by
    rintro r hv ⟨t, ht, hr⟩
    have : TRef.obj r ∈ allRefs g U := reach_closed (children g) _ hVc hr ((mem_allRefs g U (.obj t)).2 (hn.2.1 t ht).1)
    exact (hw r ((mem_allRefs g U (.obj r)).1 this) hv).1) hd
  obtain ⟨hpos, hnd, hnum, hcov⟩ := hids fuel fuel recs e hd
  have L := out.layout
  obtain ⟨fl, hfl, hfile⟩ := out.types
  obtain ⟨order', hholds, hord'⟩ := out.strings
  -- sizes
  have hsum : ((recs.map (·.1)).map (weight o g)).sum + 1 < 2 ^ 32 := by
    have := nodup_sum_le (weight o g) (recs.map (·.1)) (allRefs g U) hnd (by
      intro x hx
      rw [List.mem_map] at hx
      obtain ⟨y, hy, rfl⟩ := hx
      exact hrV y hy)
    omega
  have htypes : ((recs.map (·.2)).flatten).length ≤ ((recs.map (·.1)).map (weight o g)).sum := by
    have key : ∀ l : List (TRef R × Bytes), (∀ x ∈ l, x.2.length ≤ weight o g x.1) →
        ((l.map (·.2)).flatten).length ≤ ((l.map (·.1)).map (weight o g)).sum := by
      intro l
      induction l with
      | nil => intro _; simp
      | cons x l ih =>
        intro h
        have h1 := h x (by simp)
        have h2 := ih (fun y hy => h y (by simp [hy]))
        simp only [List.map_cons, List.flatten_cons, List.length_append, List.sum_cons]
        omega
    refine key recs (fun x hx => ?_)
    rw [hrlen x hx]; unfold weight; omega
  have htable : (table order').length < 2 ^ 32 := by
    have h1 := (table_le order' ((recs.map (·.1)).flatMap fun t => strings (lower o (placeholderOf t) (extGraph g t))) hholds.nodup (by
      intro x hx
      rcases hord' x hx with h | ⟨t, ht, h⟩
      · exact .inl h
      · exact .inr (List.mem_flatMap.2 ⟨t, ht, h⟩))).1
    have h2 : ∀ l : List (TRef R), ((l.flatMap fun t => strings (lower o (placeholderOf t) (extGraph g t))).map fun s => s.length + 1).sum ≤ (l.map (weight o g)).sum := by
      intro l
      induction l with
      | nil => simp
      | cons t l ih =>
        have : strBytes (strings (lower o (placeholderOf t) (extGraph g t))) ≤ weight o g t := by unfold weight; omega
        simp only [List.flatMap_cons, List.map_append, List.sum_append, List.map_cons, List.sum_cons]
        unfold strBytes at this
        omega
    have := h2 (recs.map (·.1))
    omega
  obtain ⟨st, hst, hres, hslen⟩ := resolves_table e.strings order' hholds htable (shuffle e.strings.strings) (hshuffle _)
  have hnl : fl.length < 2 ^ 32 := by
    have := L.size
    rw [hfl] at this; simpa using this
  obtain ⟨d, hdec, hdesc⟩ := newDecoder_describes bo (e.id g) e.strings st (fl.map fun x => (lower o (placeholderOf x.1) (extGraph g x.1), x.2.1, x.2.2)) (by simpa using hnl)
    (by
      intro x hx
      rw [List.mem_map] at hx
      obtain ⟨y, hy, rfl⟩ := hx
      exact hfile y hy) hres
  have hnodes : (fl.map fun x => (lower o (placeholderOf x.1) (extGraph g x.1), x.2.1, x.2.2)).map (fun x => x.1.map (idD (e.id g))) =
      written o g (recs.map (·.1)) (idD (e.id g)) := by
    rw [hfl]; simp [written, Function.comp_def]
  have hflat : (recs.map (·.2)).flatten = flat bo ((fl.map fun x => (lower o (placeholderOf x.1) (extGraph g x.1), x.2.1, x.2.2)).map (·.2)) := by
    rw [hfl, flat_recs]; simp [Function.comp_def]
  rw [hnodes] at hdesc
  rw [← hflat] at hdec
  have hload := load_blob bo ((recs.map (·.2)).flatten) (encodeStrings e.strings.length (shuffle e.strings.strings)) st d (by omega) (by rw [hslen]; exact e.strings.length.isLt) hst hdec
  rw [hslen, BitVec.ofNat_toNat, BitVec.setWidth_eq] at hload
  refine ⟨_, d, idD (e.id g), hsucc, by unfold marshal; rw [hd], hload, ?_, ?_⟩
  · intro i t a hi ha
    obtain ⟨_, hz, _⟩ := hadd i i t t a a hi hi ha ha
    by_cases h0 : a = 0
    · rw [L.zero (.obj t) (by simp [extGraph, hz.1 h0, Node.map]), h0]
    · have := L.pos _ _ (hpos i t a hi ha h0)
      have hp : 0 < a.toNat := by
        rcases Nat.eq_zero_or_pos a.toNat with h | h
        · exact absurd (BitVec.eq_of_toNat_eq (by simpa using h)) h0
        · exact h
      rw [this, Nat.sub_add_cancel hp]; simp
  · intro q
    have hlen' : (written o g (recs.map (·.1)) (idD (e.id g))).length = (recs.map (·.1)).length := by simp [written]
    have hle := nodup_length_le (recs.map (·.1)) (allRefs g U) hnd (by
      intro x hx
      rw [List.mem_map] at hx
      obtain ⟨y, hy, rfl⟩ := hx
      exact hrV y hy)
    obtain ⟨s', rs, hrun, hinv, _, _, hres⟩ := run_works hdesc L.readable fuel (by omega) q .init (inv_init _)
    rw [hrun]
    refine ⟨_, _, L.copyOf hinv, ?_⟩
    intro i id hid
    have hr := hres i id hid
    have hcov' : ∀ u, u ∈ recs.map (·.1) ↔ extGraph g u ≠ .void ∧ Covered o g ts u := by
      intro u
      rw [hcov]
      unfold Covered
      constructor
      · rintro (⟨hv, h⟩ | ⟨ho, r, nm, sg, vs, rfl, hg, h⟩)
        · exact ⟨hv, .inl ((hreach u hv).1 h)⟩
        · exact ⟨by simp [extGraph, hg], .inr ⟨ho, r, nm, sg, vs, rfl, hg, (hreach _ (by simp [extGraph, hg, Node.map])).1 h⟩⟩
      · rintro ⟨hv, h | ⟨ho, r, nm, sg, vs, rfl, hg, h⟩⟩
        · exact .inl ⟨hv, (hreach u hv).2 h⟩
        · exact .inr ⟨ho, r, nm, sg, vs, rfl, hg, (hreach _ (by simp [extGraph, hg, Node.map])).2 h⟩
    by_cases h0 : id = 0
    · subst h0
      rw [if_pos (by simp)] at hr
      exact .inl ⟨rfl, 0, by rw [hr.1, addr, if_pos rfl], hinv.void⟩
    · right
      rw [hlen'] at hr
      by_cases hb : id.toNat ≤ (recs.map (·.1)).length
      · rw [if_pos hb] at hr
        obtain ⟨t, ht, he⟩ := L.id_surj id h0 hb
        left
        exact ⟨h0, t, ((hcov' t).1 ht).2, he, .inr ⟨ht, by rw [he]; exact hr.2⟩, by rw [hr.1, ← he]⟩
      · rw [if_neg hb] at hr
        right
        refine ⟨h0, ?_, hr⟩
        intro t hc he
        by_cases hv : extGraph g t = .void
        · rw [L.zero t hv] at he; exact h0 he.symm
        · have := (L.id_bound ((hcov' t).2 ⟨hv, hc⟩)).2.1
          rw [he] at this
          exact hb this

end Ebpf.Btf
