import Verif.Model.LinkInfo
/-!
# C99: what Info tells about a link
-/
namespace Ebpf.LinkInfo
open LinkInfoSpec

/-- A string followed by NUL and zeros reads as the string. -/
theorem cstr (n : List Nat) (rest : List Nat) (h : 0 ∉ n) : byteSliceToString (n ++ 0 :: rest) = n := by
  unfold byteSliceToString
  rw [List.takeWhile_append_of_pos]
  · simp
  · intro x hx
    simp only [bne_iff_ne, ne_eq]
    intro e
    exact h (e ▸ hx)

theorem fill_full (n w : List Nat) (h : w.length = n.length) : fill n w = .ok w := by
  unfold fill
  rw [if_pos (by omega), h, List.drop_length, List.append_nil]

theorem fill_nil (n : List Nat) : fill n [] = .ok n := by simp [fill]

theorem fill_name (n : List Nat) (k : Nat) (h : 0 ∉ n) (hk : n.length + 1 ≤ k) :
    ∃ b, fill (List.replicate k 0) (n ++ [0]) = .ok b ∧ byteSliceToString b = n := by
  refine ⟨(n ++ [0]) ++ (List.replicate k 0).drop (n ++ [0]).length, ?_, ?_⟩
  · unfold fill
    rw [if_pos (by simp; omega)]
  · rw [List.append_assoc, List.singleton_append]
    exact cstr n _ h

/-- The two queries of a name, made to a link with a name that is `n1`, then `n2`. -/
theorem query_fill (K : Kernel) (po lo : Nat) (told : Bool) (n1 n2 : List Nat) (b1 b2 : Req → Rep)
    (h1 : K 0 zero = fillName told po lo n1 zero (b1 zero)) (h2 : ∀ q, K 1 q = fillName told po lo n2 q (b2 q))
    (hb : (b1 zero).num lo = 0) (hw : ∀ q, (b2 q).wrote po = []) (hn : 0 ∉ n2) (hpo : po = 16 ∨ po = 24) :
    ∃ q : Req, queryInfoWithString K po lo =
      if told = true then
        if n2.length ≤ n1.length then .ok (n2, put (b2 q).num lo (n2.length + 1)) else .error (.text ENOSPC)
      else .ok ([], (b2 q).num) := by
  have e1 : fillName told po lo n1 zero (b1 zero) =
      .ok { b1 zero with num := if told then put (b1 zero).num lo (n1.length + 1) else (b1 zero).num } := by
    simp [fillName, zero]
  unfold queryInfoWithString
  rw [h1, e1]
  dsimp only
  cases told with
  | false =>
    simp only [Bool.false_eq_true, if_false, hb]
    refine ⟨{ ptr := fun o => if o = po then slicePointer 0 (List.replicate 0 0) else none, num := (b1 zero).num }, ?_⟩
    rw [h2]
    simp [fillName, slicePointer, after, hb, after, byteSliceToString]
  | true =>
    simp only [if_true]
    refine ⟨{ ptr := fun o => if o = po then slicePointer 0 (List.replicate (n1.length + 1) 0) else none,
              num := put (b1 zero).num lo (n1.length + 1) }, ?_⟩
    have el : put (b1 zero).num lo (n1.length + 1) lo = n1.length + 1 := by simp [put]
    rw [h2, el]
    by_cases hc : n2.length ≤ n1.length
    · rw [if_pos hc]
      have := fill_name n2 (n1.length + 1) hn (by omega)
      obtain ⟨b, hb1, hb2⟩ := this
      rcases hpo with rfl | rfl <;> simp [fillName, slicePointer, after, el, hc, wr, after, hb1, hb2]
    · rw [if_neg hc]
      simp [fillName, slicePointer, el, hc]

/-- The header of the answer. -/
abbrev base (l : Link) (q : Req) : Rep := { num := put (put (put q.num 0 l.kind.type) 4 l.id) 8 l.prog, wrote := fun _ => [] }

/-! ## The kind of a link is known from its type -/

theorem kind_raw (l : Link) (h : l.Wf) (t : l.kind.type = 1) : ∃ n, l.kind = .rawTracepoint n := by
  revert h t; unfold Link.Wf; cases l.kind <;> simp [Kind.type, known]
  rintro a b; omega

theorem kind_iter (l : Link) (h : l.Wf) (t : l.kind.type = 4) : ∃ n, l.kind = .iter n := by
  revert h t; unfold Link.Wf; cases l.kind <;> simp [Kind.type, known]
  rintro a b; omega

theorem kind_perf (l : Link) (h : l.Wf) (t : l.kind.type = 7) : ∃ p, l.kind = .perf p := by
  revert h t; unfold Link.Wf; cases l.kind <;> simp [Kind.type, known]
  rintro a b; omega

theorem kind_kmulti (l : Link) (h : l.Wf) (t : l.kind.type = 8) : ∃ a b c d, l.kind = .kprobeMulti a b c d := by
  revert h t; unfold Link.Wf; cases l.kind <;> simp [Kind.type, known]
  rintro a b; omega

theorem kind_umulti (l : Link) (h : l.Wf) (t : l.kind.type = 12) : ∃ a b c d, l.kind = .uprobeMulti a b c d := by
  revert h t; unfold Link.Wf; cases l.kind <;> simp [Kind.type, known]
  rintro a b; omega

/-- The first query, with an empty struct, is always answered, with the type of the link. -/
theorem answer_zero (f : Features) (l : Link) (h : l.Wf) :
    ∃ r, answer f l zero = .ok r ∧ r.num 0 = l.kind.type ∧ r.num 4 = l.id ∧ r.num 8 = l.prog := by
  unfold answer
  revert h; unfold Link.Wf
  cases l.kind with
  | rawTracepoint n => simp [fillName, zero, put]
  | iter n => simp [fillName, zero, put]
  | perf p =>
    intro _
    dsimp only [fillPerf]
    cases f.perf
    · simp [put]
    · cases f.perfLen <;> cases p <;> simp [fillName, zero, put]
  | kprobeMulti a b c d => cases hk : f.kmulti <;> simp [fillKmulti, zero, put, hk]
  | uprobeMulti a b c d =>
    cases hk : f.umulti
    · simp [fillUmulti, zero, put, hk]
    · simp [fillUmulti, zero, hk, wrIf]
      intro _ h _ _
      rw [if_neg (by omega)]
      simp [put]
  | _ => simp [put, Kind.type]

/-- The result of Info: what was true at one query, or a name that grew between two. -/
def Told (f : Features) (L : Nat → Link) (r : Except Err Info) : Prop :=
  (∃ i, r = .ok i ∧ i.type = (L 0).kind.type ∧ (∃ m, i.id = (L m).id ∧ i.prog = (L m).prog) ∧ ∃ k, i.extra = (L k).kind.told f) ∨
  ((r = .error (.text ENOSPC) ∨ r = .error (.text ENAMETOOLONG)) ∧
    ∃ m, (L m).kind.name.length < (L (m + 1)).kind.name.length)

theorem open_method (f : Features) (L : Nat → Link) (wf : ∀ n, (L n).Wf) (ty : ∀ n, (L n).kind.type = (L 0).kind.type) :
    openInfo (fun n => answer f (L n)) = infoMethod (L 1).kind.type (fun n => answer f (L (n + 1))) := by
  unfold openInfo simpleInfo
  obtain ⟨r, h, h0, h4, h8⟩ := answer_zero f (L 0) (wf 0)
  dsimp only
  rw [h]
  dsimp only [common]
  rw [h0, ty 1]

theorem told_raw (f : Features) (L : Nat → Link) (wf : ∀ n, (L n).Wf) (ty : ∀ n, (L n).kind.type = 1) :
    Told f L (rawTracepointInfo fun n => answer f (L (n + 1))) := by
  obtain ⟨n1, k1⟩ := kind_raw _ (wf 1) (ty 1)
  obtain ⟨n2, k2⟩ := kind_raw _ (wf 2) (ty 2)
  have w2 := wf 2
  simp only [Link.Wf, k2] at w2
  obtain ⟨q, h⟩ := query_fill (fun n => answer f (L (n + 1))) 16 24 true n1 n2 (base (L 1)) (base (L 2))
    (by simp [answer, base, k1]) (by intro q; simp [answer, base, k2]) (by simp [put, zero]) (by intro q; rfl) w2 (.inl rfl)
  unfold rawTracepointInfo
  rw [h]
  simp only [if_true]
  by_cases hc : n2.length ≤ n1.length
  · rw [if_pos hc]
    left
    refine ⟨_, rfl, ?_, ⟨2, ?_, ?_⟩, 2, ?_⟩
    · simp [common, put, ty]
    · simp [common, put]
    · simp [common, put]
    · simp [common, k2, Kind.told, Kind.extra]
  · rw [if_neg hc]
    right
    exact ⟨.inl rfl, 1, by simp only [k1, k2, Kind.name]; omega⟩

theorem told_iter (f : Features) (L : Nat → Link) (wf : ∀ n, (L n).Wf) (ty : ∀ n, (L n).kind.type = 4) :
    Told f L (iterInfo fun n => answer f (L (n + 1))) := by
  obtain ⟨n1, k1⟩ := kind_iter _ (wf 1) (ty 1)
  obtain ⟨n2, k2⟩ := kind_iter _ (wf 2) (ty 2)
  have w2 := wf 2
  simp only [Link.Wf, k2] at w2
  obtain ⟨q, h⟩ := query_fill (fun n => answer f (L (n + 1))) 16 24 true n1 n2 (base (L 1)) (base (L 2))
    (by simp [answer, base, k1]) (by intro q; simp [answer, base, k2]) (by simp [put, zero]) (by intro q; rfl) w2 (.inl rfl)
  unfold iterInfo
  rw [h]
  simp only [if_true]
  by_cases hc : n2.length ≤ n1.length
  · rw [if_pos hc]
    left
    refine ⟨_, rfl, ?_, ⟨2, ?_, ?_⟩, 2, ?_⟩
    · simp [common, put, ty]
    · simp [common, put]
    · simp [common, put]
    · simp [common, k2, Kind.told, Kind.extra]
  · rw [if_neg hc]
    right
    exact ⟨.inl rfl, 1, by simp only [k1, k2, Kind.name]; omega⟩

theorem told_kmulti (f : Features) (L : Nat → Link) (wf : ∀ n, (L n).Wf) (ty : ∀ n, (L n).kind.type = 8)
    (sh : ∀ n, (L n).kind.shape = (L 0).kind.shape) :
    Told f L (kprobeMultiInfo fun n => answer f (L (n + 1))) := by
  obtain ⟨a1, c1, fl1, m1, k1⟩ := kind_kmulti _ (wf 1) (ty 1)
  obtain ⟨a2, c2, fl2, m2, k2⟩ := kind_kmulti _ (wf 2) (ty 2)
  have w2 := wf 2
  simp only [Link.Wf, k2] at w2
  have hl : a2.length = a1.length := by have := (sh 2).trans (sh 1).symm; simpa [k1, k2, Kind.shape] using this
  have hp : 0 < a2.length := List.length_pos_iff.mpr w2.1
  left
  unfold kprobeMultiInfo
  cases hk : f.kmulti with
  | false =>
    refine ⟨⟨8, (L 2).id, (L 2).prog, (L 2).kind.told f⟩, ?_, (ty 0).symm, ⟨2, rfl, rfl⟩, 2, rfl⟩
    simp [answer, k1, k2, fillKmulti, hk, zero, put, slicePointer, after, orNil, addresses, common, Kind.type, Kind.told]
  | true =>
    have hp1 : a1.length ≠ 0 := by omega
    refine ⟨⟨8, (L 2).id, (L 2).prog, (L 2).kind.told f⟩, ?_, (ty 0).symm, ⟨2, rfl, rfl⟩, 2, rfl⟩
    have e1 : answer f (L 1) zero =
        .ok { num := put (put (put (put (put (put zero.num 0 8) 4 (L 1).id) 8 (L 1).prog) 24 a1.length) 28 fl1) 32 m1,
              wrote := fun _ => [] } := by
      simp [answer, k1, fillKmulti, hk, zero, Kind.type]
    simp only [e1]
    have en : put (put (put (put (put (put zero.num 0 8) 4 (L 1).id) 8 (L 1).prog) 24 a1.length) 28 fl1) 32 m1 24 = a1.length := by
      simp [put]
    simp only [en]
    have em : (a2.map fun _ => (0 : Nat)) = List.replicate a1.length 0 := by rw [List.map_const', hl]
    cases hc : f.kcookies with
    | false =>
      cases ha : f.addrs <;>
      simp [answer, k2, fillKmulti, hk, hc, ha, hl, hp1, slicePointer, after, wr, fill, orNil, addresses, common, put, Kind.type,
        Kind.told, Kind.extra, em]
    | true =>
      cases hcs : c2 with
      | none =>
        cases ha : f.addrs <;>
        simp [answer, k2, fillKmulti, hk, hc, ha, hl, hp1, slicePointer, after, wr, fill, orNil, addresses, common, put, Kind.type,
          Kind.told, Kind.extra, em, hcs]
      | some c =>
        have hcl : c.length = a1.length := (w2.2 c hcs).trans hl
        cases ha : f.addrs <;>
        simp [answer, k2, fillKmulti, hk, hc, ha, hl, hp1, slicePointer, after, wr, fill, orNil, addresses, common, put, Kind.type,
          Kind.told, Kind.extra, em, hcs, hcl]

theorem zip_places (ps : List Place) :
    ((ps.map (·.offset)).zip ((ps.map (·.cookie)).zip (ps.map (·.refCtr)))).map (fun x => (⟨x.1, x.2.1, x.2.2⟩ : Place)) = ps := by
  induction ps with
  | nil => rfl
  | cons p ps ih => simp only [List.map_cons, List.zip_cons_cons, ih]

theorem told_umulti (f : Features) (L : Nat → Link) (wf : ∀ n, (L n).Wf) (ty : ∀ n, (L n).kind.type = 12)
    (sh : ∀ n, (L n).kind.shape = (L 0).kind.shape) :
    Told f L (uprobeMultiInfo fun n => answer f (L (n + 1))) := by
  obtain ⟨p1, s1, fl1, i1, k1⟩ := kind_umulti _ (wf 1) (ty 1)
  obtain ⟨p2, s2, fl2, i2, k2⟩ := kind_umulti _ (wf 2) (ty 2)
  have w2 := wf 2
  have w1 := wf 1
  simp only [Link.Wf, k2] at w2
  simp only [Link.Wf, k1] at w1
  have hl : s2.length = s1.length := by have := (sh 2).trans (sh 1).symm; simpa [k1, k2, Kind.shape] using this
  have hp : 0 < s2.length := List.length_pos_iff.mpr w2.2.2.1
  unfold uprobeMultiInfo
  cases hk : f.umulti with
  | false =>
    left
    refine ⟨⟨12, (L 2).id, (L 2).prog, (L 2).kind.told f⟩, ?_, (ty 0).symm, ⟨2, rfl, rfl⟩, 2, rfl⟩
    simp [answer, k1, k2, fillUmulti, hk, zero, put, slicePointer, after, orNil, offsets, common, Kind.type, Kind.told, pid,
      byteSliceToString]
  | true =>
    have hp1 : s1.length ≠ 0 := by omega
    have hlt : ¬ 4096 < p1.length + 1 := by omega
    have e1 : answer f (L 1) zero =
        .ok { num := put (put (put (put (put (put (put zero.num 0 12) 4 (L 1).id) 8 (L 1).prog) 48 (p1.length + 1)) 52 s1.length)
                56 fl1) 60 (if f.pidSeen then i1.getD 0 else 0),
              wrote := fun _ => [] } := by
      simp [answer, k1, fillUmulti, hk, zero, Kind.type, wrIf]
      omega
    simp only [e1]
    generalize hR : put (put (put (put (put (put (put zero.num 0 12) 4 (L 1).id) 8 (L 1).prog) 48 (p1.length + 1)) 52 s1.length)
                56 fl1) 60 (if f.pidSeen then i1.getD 0 else 0) = R
    have en : R 48 = p1.length + 1 := by simp [← hR, put]
    have em : R 52 = s1.length := by simp [← hR, put]
    simp only [en, em]
    by_cases hc : p2.length ≤ p1.length
    · left
      refine ⟨⟨12, (L 2).id, (L 2).prog, (L 2).kind.told f⟩, ?_, (ty 0).symm, ⟨2, rfl, rfl⟩, 2, rfl⟩
      obtain ⟨b, hb1, hb2⟩ := fill_name p2 (p1.length + 1) w2.1 (by omega)
      have hm : min (p1.length + 1) 4096 = p1.length + 1 := by omega
      have hcn : ¬ p1.length < p2.length := by omega
      have hpid : pid (if f.pidSeen = true then i2.getD 0 else 0) = if f.pidSeen = true then i2 else none := by
        cases f.pidSeen
        · rfl
        · cases i2 with
          | none => rfl
          | some n => have := w2.2.2.2 n rfl; simp [pid, this]
      have hf : ∀ g : Place → Nat, fill (List.replicate s1.length 0) (s2.map g) = .ok (s2.map g) := by
        intro g; exact fill_full _ _ (by simp [hl])
      simp [answer, k2, fillUmulti, hk, hl, hp1, slicePointer, after, wr, wrIf, orNil, offsets, common, put, Kind.type,
        Kind.told, Kind.extra, hm, hcn, hf, hb1, hb2, hpid, zip_places]
    · right
      refine ⟨.inr ?_, 1, by simp only [k1, k2, Kind.name]; omega⟩
      have hm : min (p1.length + 1) 4096 = p1.length + 1 := by omega
      have hcn : p1.length < p2.length := by omega
      simp [answer, k2, fillUmulti, hk, hp1, slicePointer, hm, hcn]

/-- What a name query of a perf event gives, with the name `n1`, then `n2`. -/
theorem perf_query (f : Features) (L : Nat → Link) (p1 p2 : Perf) (n1 n2 : List Nat) (g1 g2 : (Nat → Nat) → Nat → Nat)
    (k1 : (L 2).kind = .perf p1) (k2 : (L 3).kind = .perf p2)
    (e1 : ∀ q r, fillPerf f p1 q r = fillName f.perfLen 24 32 n1 q { r with num := g1 (put r.num 16 p1.type) })
    (e2 : ∀ q r, fillPerf f p2 q r = fillName f.perfLen 24 32 n2 q { r with num := g2 (put r.num 16 p2.type) })
    (hg : ∀ x, x 32 = 0 → g1 x 32 = 0) (hn : 0 ∉ n2) :
    ∃ b : Nat → Nat, queryInfoWithString (fun n => answer f (L (n + 2))) 24 32 =
      if f.perfLen = true then
        if n2.length ≤ n1.length then .ok (n2, put (g2 b) 32 (n2.length + 1)) else .error (.text ENOSPC)
      else .ok ([], g2 b) := by
  obtain ⟨q, h⟩ := query_fill (fun n => answer f (L (n + 2))) 24 32 f.perfLen n1 n2
    (fun q => { base (L 2) q with num := g1 (put (base (L 2) q).num 16 p1.type) })
    (fun q => { base (L 3) q with num := g2 (put (base (L 3) q).num 16 p2.type) })
    (by simp only [answer, k1, e1]) (by intro q; simp only [answer, k2, e2]) (hg _ (by simp [put, zero])) (by intro q; rfl) hn (.inr rfl)
  exact ⟨_, h⟩

theorem perf_type (f : Features) (l : Link) (p : Perf) (k : l.kind = .perf p) (hf : f.perf = true) :
    ∃ r, answer f l zero = .ok r ∧ r.num 16 = p.type ∧ r.num 0 = 7 ∧ r.num 4 = l.id ∧ r.num 8 = l.prog ∧
      ∀ c t o, p = .event c t o → r.num 24 = c ∧ r.num 32 = t ∧ r.num 40 = o := by
  simp only [answer, k, fillPerf, hf]
  cases f.perfLen <;> cases p <;> simp [fillName, zero, put, Kind.type]
  all_goals (intro _ _ _ a b c; exact ⟨a, b, c⟩)

theorem perf_kprobe (p : Perf) (h : p.type = 3 ∨ p.type = 4) : ∃ a b c d e, p = .kprobe a b c d e := by
  cases p with
  | kprobe a b c d e => exact ⟨a, b, c, d, e, rfl⟩
  | uprobe r => cases r <;> simp [Perf.type] at h
  | _ => simp [Perf.type] at h

theorem perf_uprobe (p : Perf) (h : p.type = 1 ∨ p.type = 2) : ∃ a b c d e, p = .uprobe a b c d e := by
  cases p with
  | uprobe a b c d e => exact ⟨a, b, c, d, e, rfl⟩
  | kprobe r => cases r <;> simp [Perf.type] at h
  | _ => simp [Perf.type] at h

theorem perf_tracepoint (p : Perf) (h : p.type = 5) : ∃ a b, p = .tracepoint a b := by
  cases p with
  | tracepoint a b => exact ⟨a, b, rfl⟩
  | kprobe r => cases r <;> simp [Perf.type] at h
  | uprobe r => cases r <;> simp [Perf.type] at h
  | _ => simp [Perf.type] at h

theorem perf_event (p : Perf) (h : p.type = 6) : ∃ a b c, p = .event a b c := by
  cases p with
  | event a b c => exact ⟨a, b, c, rfl⟩
  | kprobe r => cases r <;> simp [Perf.type] at h
  | uprobe r => cases r <;> simp [Perf.type] at h
  | _ => simp [Perf.type] at h

/-- The type specific part: the kernel's, at the last query, or a name that grew. -/
theorem told_perfExtra (f : Features) (L : Nat → Link) (wf : ∀ n, (L n).Wf) (p1 p2 : Perf) (hf : f.perf = true)
    (k1 : (L 2).kind = .perf p1) (k2 : (L 3).kind = .perf p2) (t : p2.type = p1.type) :
    (∃ x, perfExtra (fun n => answer f (L (n + 2))) p1.type = .ok x ∧
        ((Kind.perf p2).told f = .perf p2.type x ∨ (Kind.perf p1).told f = .perf p1.type x)) ∨
      (perfExtra (fun n => answer f (L (n + 2))) p1.type = .error (.text ENOSPC) ∧
        (L 2).kind.name.length < (L 3).kind.name.length) := by
  have w2 := wf 3
  by_cases c1 : p1.type = 3 ∨ p1.type = 4
  · obtain ⟨a1, n1, o1, d1, m1, rfl⟩ := perf_kprobe p1 c1
    obtain ⟨a2, n2, o2, d2, m2, rfl⟩ := perf_kprobe p2 (by rw [t]; exact c1)
    simp only [Link.Wf, k2] at w2
    obtain ⟨b, h⟩ := perf_query f L _ _ n1 n2 (fun r => put (put (put r 36 o1) 40 d1) 48 m1)
      (fun r => put (put (put r 36 o2) 40 d2) 48 m2) k1 k2 (by intro q r; simp [fillPerf, hf]) (by intro q r; simp [fillPerf, hf])
      (by intro x hx; simp [put, hx]) w2
    unfold perfExtra
    rw [if_pos c1, h]
    cases hl : f.perfLen with
    | false => left; refine ⟨_, rfl, .inl ?_⟩; simp [Kind.told, hf, hl, put]
    | true =>
      by_cases hc : n2.length ≤ n1.length
      · left; simp only [if_true, hc]; refine ⟨_, rfl, .inl ?_⟩; simp [Kind.told, hf, hl, put, Perf.extra]
      · right; simp only [if_true, hc, if_false]; exact ⟨rfl, by simp only [k1, k2, Kind.name]; omega⟩
  · by_cases c2 : p1.type = 1 ∨ p1.type = 2
    · obtain ⟨a1, n1, o1, d1, m1, rfl⟩ := perf_uprobe p1 c2
      obtain ⟨a2, n2, o2, d2, m2, rfl⟩ := perf_uprobe p2 (by rw [t]; exact c2)
      simp only [Link.Wf, k2] at w2
      obtain ⟨b, h⟩ := perf_query f L _ _ n1 n2 (fun r => put (put (put r 36 o1) 40 d1) 48 m1)
        (fun r => put (put (put r 36 o2) 40 d2) 48 m2) k1 k2 (by intro q r; simp [fillPerf, hf]) (by intro q r; simp [fillPerf, hf])
        (by intro x hx; simp [put, hx]) w2
      unfold perfExtra
      rw [if_neg c1, if_pos c2, h]
      cases hl : f.perfLen with
      | false => left; refine ⟨_, rfl, .inl ?_⟩; simp [Kind.told, hf, hl, put]
      | true =>
        by_cases hc : n2.length ≤ n1.length
        · left; simp only [if_true, hc]; refine ⟨_, rfl, .inl ?_⟩; simp [Kind.told, hf, hl, put, Perf.extra]
        · right; simp only [if_true, hc, if_false]; exact ⟨rfl, by simp only [k1, k2, Kind.name]; omega⟩
    · by_cases c3 : p1.type = 5
      · obtain ⟨n1, o1, rfl⟩ := perf_tracepoint p1 c3
        obtain ⟨n2, o2, rfl⟩ := perf_tracepoint p2 (by rw [t]; exact c3)
        simp only [Link.Wf, k2] at w2
        obtain ⟨b, h⟩ := perf_query f L _ _ n1 n2 (fun r => put r 40 o1)
          (fun r => put r 40 o2) k1 k2 (by intro q r; simp [fillPerf, hf]) (by intro q r; simp [fillPerf, hf])
          (by intro x hx; simp [put, hx]) w2
        unfold perfExtra
        rw [if_neg c1, if_neg c2, if_pos c3, h]
        cases hl : f.perfLen with
        | false => left; refine ⟨_, rfl, .inl ?_⟩; simp [Kind.told, hf, hl, put]
        | true =>
          by_cases hc : n2.length ≤ n1.length
          · left; simp only [if_true, hc]; refine ⟨_, rfl, .inl ?_⟩; simp [Kind.told, hf, hl, put, Perf.extra]
          · right; simp only [if_true, hc, if_false]; exact ⟨trivial, by simp only [k1, k2, Kind.name]; omega⟩
      · have c4 : p1.type = 6 := by
          cases p1 with
          | kprobe r => cases r <;> simp [Perf.type] at c1
          | uprobe r => cases r <;> simp [Perf.type] at c2
          | tracepoint => simp [Perf.type] at c3
          | event => rfl
        obtain ⟨a, b, c, rfl⟩ := perf_event p1 c4
        obtain ⟨r, hr, _, _, _, _, he⟩ := perf_type f (L 2) _ k1 hf
        obtain ⟨h24, h32, h40⟩ := he a b c rfl
        unfold perfExtra
        rw [if_neg c1, if_neg c2, if_neg c3, if_pos c4]
        left
        simp only [Nat.zero_add, hr, h24, h32, h40]
        refine ⟨_, rfl, .inr ?_⟩
        cases hl : f.perfLen <;> simp [Kind.told, hf, hl, Perf.extra]

theorem told_perf (f : Features) (L : Nat → Link) (wf : ∀ n, (L n).Wf) (ty : ∀ n, (L n).kind.type = 7)
    (sh : ∀ n, (L n).kind.shape = (L 0).kind.shape) :
    Told f L (perfInfo fun n => answer f (L (n + 1))) := by
  obtain ⟨p1, k1⟩ := kind_perf _ (wf 1) (ty 1)
  obtain ⟨p2, k2⟩ := kind_perf _ (wf 2) (ty 2)
  obtain ⟨p3, k3⟩ := kind_perf _ (wf 3) (ty 3)
  have t12 : p2.type = p1.type := by have := (sh 2).trans (sh 1).symm; simpa [k1, k2, Kind.shape] using this
  have t23 : p3.type = p2.type := by have := (sh 3).trans (sh 2).symm; simpa [k2, k3, Kind.shape] using this
  unfold perfInfo
  simp only [Nat.zero_add]
  cases hf : f.perf with
  | false =>
    left
    refine ⟨⟨7, (L 1).id, (L 1).prog, (L 1).kind.told f⟩, ?_, (ty 0).symm, ⟨1, rfl, rfl⟩, 1, rfl⟩
    simp [answer, k1, fillPerf, hf, put, zero, common, perfExtra, Kind.type, Kind.told]
  | true =>
    obtain ⟨r, hr, h16, h0, h4, h8, _⟩ := perf_type f (L 1) p1 k1 hf
    rw [hr]
    dsimp only
    rw [h16, ← t12]
    rcases told_perfExtra f L wf p2 p3 hf k2 k3 t23 with ⟨x, hx, ht⟩ | ⟨hx, hlt⟩
    · left
      rw [show (fun i => answer f (L (i + 1 + 1))) = (fun n => answer f (L (n + 2))) from rfl, hx]
      refine ⟨_, rfl, by simp [common, h0, ty], ⟨1, by simp [common, h4], by simp [common, h8]⟩, ?_⟩
      rcases ht with ht | ht
      · exact ⟨3, by simp only [common, k3, ht, t23]⟩
      · exact ⟨2, by simp only [common, k2, ht]⟩
    · right
      rw [show (fun i => answer f (L (i + 1 + 1))) = (fun n => answer f (L (n + 2))) from rfl, hx]
      exact ⟨.inl rfl, 2, hlt⟩

/-! ## C99 -/

/-- **Info tells what is true.** Whatever the kernel, and however the names, the programs and the counters of a link change while it is being
asked: opening a link and asking for its Info gives the link's type, the ID and program it had, and what the kernel had to tell about it
at one moment - never a truncated name, never another field's value, never memory overwritten. The only failure is a name that
grew between two queries. -/
theorem info_true (f : Features) (L : Nat → Link) (wf : ∀ n, (L n).Wf) (ty : ∀ n, (L n).kind.type = (L 0).kind.type)
    (sh : ∀ n, (L n).kind.shape = (L 0).kind.shape) :
    (∃ i, openInfo (fun n => answer f (L n)) = .ok i ∧ i.type = (L 0).kind.type ∧
        (∃ m, i.id = (L m).id ∧ i.prog = (L m).prog) ∧ ∃ k, i.extra = (L k).kind.told f) ∨
    ((openInfo (fun n => answer f (L n)) = .error (.text ENOSPC) ∨ openInfo (fun n => answer f (L n)) = .error (.text ENAMETOOLONG)) ∧
      ∃ m, (L m).kind.name.length < (L (m + 1)).kind.name.length) := by
  show Told f L _
  rw [open_method f L wf ty]
  have simple : ∀ (x : (Nat → Nat) → Extra), (∀ r, answer f (L 1) zero = .ok r → x r.num = (L 1).kind.told f) →
      Told f L (simpleInfo (fun n => answer f (L (n + 1))) x) := by
    intro x hx
    obtain ⟨r, hr, h0, h4, h8⟩ := answer_zero f (L 1) (wf 1)
    unfold simpleInfo
    simp only [Nat.zero_add, hr]
    exact .inl ⟨_, rfl, h0.trans (ty 1), ⟨1, h4, h8⟩, 1, hx r hr⟩
  cases k : (L 1).kind with
  | rawTracepoint n => exact told_raw f L wf (fun m => by rw [ty m, ← ty 1, k]; rfl)
  | iter n => exact told_iter f L wf (fun m => by rw [ty m, ← ty 1, k]; rfl)
  | perf p => exact told_perf f L wf (fun m => by rw [ty m, ← ty 1, k]; rfl) sh
  | kprobeMulti a b c d => exact told_kmulti f L wf (fun m => by rw [ty m, ← ty 1, k]; rfl) sh
  | uprobeMulti a b c d => exact told_umulti f L wf (fun m => by rw [ty m, ← ty 1, k]; rfl) sh
  | other t =>
    have w := wf 1
    simp only [Link.Wf, k, known] at w
    have : infoMethod (Kind.other t).type (fun n => answer f (L (n + 1))) =
        simpleInfo (fun n => answer f (L (n + 1))) fun _ => .none := by
      unfold infoMethod Kind.type
      dsimp only
      split <;> simp_all
    rw [this]
    exact simple _ (by intro r hr; simp only [answer, k] at hr; cases hr; simp [k, Kind.told, Kind.extra])
  | tracing a b c => exact simple _ (by intro r hr; simp only [answer, k] at hr; cases hr; simp [k, Kind.told, Kind.extra, tracingExtra, put])
  | cgroup a b => exact simple _ (by intro r hr; simp only [answer, k] at hr; cases hr; simp [k, Kind.told, Kind.extra, cgroupExtra, put])
  | netns a b => exact simple _ (by intro r hr; simp only [answer, k] at hr; cases hr; simp [k, Kind.told, Kind.extra, netnsExtra, put])
  | xdp a => exact simple _ (by intro r hr; simp only [answer, k] at hr; cases hr; simp [k, Kind.told, Kind.extra, xdpExtra, put])
  | netfilter a b c d => exact simple _ (by intro r hr; simp only [answer, k] at hr; cases hr; simp [k, Kind.told, Kind.extra, netfilterExtra, put])
  | tcx a b => exact simple _ (by intro r hr; simp only [answer, k] at hr; cases hr; simp [k, Kind.told, Kind.extra, tcxExtra, put])
  | netkit a b => exact simple _ (by intro r hr; simp only [answer, k] at hr; cases hr; simp [k, Kind.told, Kind.extra, netkitExtra, put])

/-- Asking never fails for a link that doesn't change, and tells what the kernel can tell. -/
theorem info_told (f : Features) (l : Link) (wf : l.Wf) :
    openInfo (fun _ => answer f l) = .ok ⟨l.kind.type, l.id, l.prog, l.kind.told f⟩ := by
  rcases info_true f (fun _ => l) (fun _ => wf) (fun _ => rfl) (fun _ => rfl) with ⟨i, h, h0, ⟨_, h4, h8⟩, _, hx⟩ | ⟨_, _, h⟩
  · rw [h]
    cases i
    simp only at h0 h4 h8 hx
    rw [h0, h4, h8, hx]
  · exact absurd h (Nat.lt_irrefl _)

/-- **Info is complete on a kernel that tells everything**: the user is told all there is to know about the link - one pair of address and
cookie per kprobe, one offset, cookie and reference count per uprobe, the whole name. (Missing for other kernels: see
`old_kernel_hides`.) -/
theorem info_complete_partial (f : Features) (hf : f.Modern) (l : Link) (wf : l.Wf) :
    openInfo (fun _ => answer f l) = .ok (report f.addrs l) := by
  rw [info_told f l wf]
  obtain ⟨a, b, c, d, e, g⟩ := hf
  unfold report
  congr 2
  cases l.kind <;> simp [Kind.told, a, b, c, d, e, g, Kind.extra]

/-- **An older kernel hides things without a sign of it**: two links that differ in the function they are attached to, or in their cookies, or
in the process they are limited to, have the same Info, one of them wrong. -/
theorem old_kernel_hides :
    (∀ f : Features, f.perf = true → f.perfLen = false → ∀ i p r n off a m, 0 ∉ n →
      openInfo (fun _ => answer f ⟨i, p, .perf (.kprobe r n off a m)⟩) =
        openInfo (fun _ => answer f ⟨i, p, .perf (.kprobe r [] off a m)⟩)) ∧
    (∀ f : Features, f.kmulti = true → f.kcookies = false → ∀ i p as cs fl m, as ≠ [] → cs.length = as.length →
      openInfo (fun _ => answer f ⟨i, p, .kprobeMulti as (some cs) fl m⟩) =
        openInfo (fun _ => answer f ⟨i, p, .kprobeMulti as none fl m⟩)) ∧
    (∀ f : Features, f.umulti = true → f.pidSeen = false → ∀ i p path ps fl pid, 0 ∉ path → path.length < 4096 → ps ≠ [] → 0 < pid →
      openInfo (fun _ => answer f ⟨i, p, .uprobeMulti path ps fl (some pid)⟩) =
        openInfo (fun _ => answer f ⟨i, p, .uprobeMulti path ps fl none⟩)) := by
  refine ⟨?_, ?_, ?_⟩
  · intro f a b i p r n off ad m hn
    rw [info_told f _ (by simpa [Link.Wf] using hn), info_told f _ (by simp [Link.Wf])]
    cases r <;> simp [Kind.told, a, b, Kind.type, Perf.type]
  · intro f a b i p as cs fl m h1 h2
    rw [info_told f _ (by simpa [Link.Wf, h1] using h2), info_told f _ (by simpa [Link.Wf] using h1)]
    simp [Kind.told, a, b, Kind.type]
  · intro f a b i p path ps fl pid h1 h2 h3 h4
    rw [info_told f _ (by simp [Link.Wf, h1, h2, h3, h4]), info_told f _ (by simp [Link.Wf, h1, h2, h3])]
    simp [Kind.told, a, b, Kind.type]

/-- A kernel that doesn't know the kind of info says so: no specific part, no addresses, no offsets. -/
theorem unknown_is_absent (f : Features) (l : Link) (wf : l.Wf) :
    (f.perf = false → ∀ p, l.kind = .perf p → openInfo (fun _ => answer f l) = .ok ⟨7, l.id, l.prog, .perf 0 .none⟩) ∧
    (f.kmulti = false → ∀ a b c d, l.kind = .kprobeMulti a b c d →
      openInfo (fun _ => answer f l) = .ok ⟨8, l.id, l.prog, .kprobeMulti 0 0 0 none⟩) ∧
    (f.umulti = false → ∀ a b c d, l.kind = .uprobeMulti a b c d →
      openInfo (fun _ => answer f l) = .ok ⟨12, l.id, l.prog, .uprobeMulti 0 0 0 [] none none⟩) := by
  rw [info_told f l wf]
  refine ⟨?_, ?_, ?_⟩ <;> intro h <;> intros <;> rename_i k <;> simp [k, Kind.told, h, Kind.type]

/-- A kernel that has forgotten nothing. -/
def allFeatures : Features := ⟨true, true, true, true, true, false, true⟩

/-- A uprobe_multi link and a link whose name grows satisfy the hypotheses; and the growing name is an error. -/
example :
    (⟨7, 9, .uprobeMulti [47, 98] [⟨1, 2, 3⟩, ⟨4, 5, 6⟩] 1 (some 77)⟩ : Link).Wf ∧
    openInfo (fun _ => answer allFeatures ⟨7, 9, .uprobeMulti [47, 98] [⟨1, 2, 3⟩, ⟨4, 5, 6⟩] 1 (some 77)⟩) =
      .ok ⟨12, 7, 9, .uprobeMulti 2 1 0 [47, 98] (some [⟨1, 2, 3⟩, ⟨4, 5, 6⟩]) (some 77)⟩ ∧
    openInfo (fun n => answer allFeatures ⟨7, 9, .rawTracepoint (List.replicate (n + 3) 65)⟩) = .error (.text ENOSPC) ∧
    openInfo (fun _ => answer allFeatures ⟨7, 9, .kprobeMulti [1000, 2000] (some [5, 6]) 0 3⟩) =
      .ok ⟨8, 7, 9, .kprobeMulti 2 0 3 (some [(0, 5), (0, 6)])⟩ := by
  refine ⟨by simp [Link.Wf], ?_, ?_, ?_⟩ <;> rfl

end Ebpf.LinkInfo
