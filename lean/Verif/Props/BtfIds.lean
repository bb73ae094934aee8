import Verif.Model.BtfMarshal
import Verif.Spec.BtfIds
import Verif.Props.BtfTraversal
import Verif.Props.BtfStrings
/-! # C27: type IDs are stable and dense -/
namespace Ebpf.Btf
open BtfSpec
set_option linter.unusedSectionVars false
variable {R : Type} [DecidableEq R]

theorem ofNat_ne_zero (n : Nat) (h0 : 0 < n) (h : n < 2 ^ 32) : (BitVec.ofNat 32 n) ≠ 0 := by
  intro e
  have := congrArg BitVec.toNat e
  simp [Nat.mod_eq_of_lt h] at this; omega

theorem getElem?_lt {α} {l : List α} {i : Nat} {x : α} (h : l[i]? = some x) : i < l.length := by
  rcases Nat.lt_or_ge i l.length with h' | h'
  · exact h'
  · rw [List.getElem?_eq_none h'] at h; cases h

theorem getElem?_snoc {α} (l : List α) (x y : α) (i : Nat) : (l ++ [x])[i]? = some y ↔ l[i]? = some y ∨ i = l.length ∧ x = y := by
  rcases Nat.lt_trichotomy i l.length with h | h | h
  · rw [List.getElem?_append_left h]; constructor
    · exact .inl
    · rintro (h' | ⟨h', _⟩)
      · exact h'
      · omega
  · subst h; simp
  · simp only [List.getElem?_append_right (Nat.le_of_lt h)]
    constructor
    · intro h'; have := getElem?_lt h'; simp at this; omega
    · rintro (h' | ⟨h', _⟩)
      · have := getElem?_lt h'; omega
      · omega

/-- Numbering one more type. -/
theorem numbers_snoc {α} [DecidableEq α] (ids : List (α × BitVec 32)) (order : List α) (t : α) (h : Numbers (List.lookup · ids) order) (hn : ids.lookup t = none)
    (hl : order.length + 1 < 2 ^ 32) : Numbers (List.lookup · ((t, BitVec.ofNat 32 (order.length + 1)) :: ids)) (order ++ [t]) := by
  have hlook : ∀ u, List.lookup u ((t, BitVec.ofNat 32 (order.length + 1)) :: ids) =
      if u = t then some (BitVec.ofNat 32 (order.length + 1)) else ids.lookup u := by
    intro u
    rw [List.lookup_cons]
    by_cases h : u = t
    · simp [h]
    · have : (u == t) = false := by simp [h]
      rw [this, if_neg h]
  constructor
  · intro i u hu
    show List.lookup u _ = _
    rw [hlook]
    rw [getElem?_snoc] at hu
    rcases hu with hu | ⟨rfl, rfl⟩
    · have : List.lookup u ids = _ := h.1 i u hu
      rw [if_neg]; exact this
      rintro rfl; rw [hn] at this; cases this
    · simp
  · intro u id hu
    replace hu : List.lookup u _ = _ := hu
    rw [hlook] at hu
    split at hu
    · rename_i e; subst e
      cases hu
      refine ⟨ofNat_ne_zero _ (by omega) hl, ?_⟩
      rw [getElem?_snoc]
      right
      simp [Nat.mod_eq_of_lt hl]
    · have := h.2 u id hu
      refine ⟨this.1, ?_⟩
      rw [getElem?_snoc]; exact .inl this.2

/-- Two types have the same ID only if they are the same. -/
theorem numbers_inj {α} {ids : α → Option (BitVec 32)} {order : List α} (h : Numbers ids order) {t u : α} {id : BitVec 32}
    (h1 : ids t = some id) (h2 : ids u = some id) : t = u := by
  have a := (h.2 t id h1).2
  have b := (h.2 u id h2).2
  rw [a] at b; exact Option.some.inj b

/-! ## `Builder.Add` -/

/-- The state of a builder: every ID handed out is the position of the type; as long as IDs last every type has one. -/
structure BInv (g : Graph R) (b : TypeBuilder R) : Prop where
  fwd : ∀ (i : Nat) t, b.types[i]? = some t → i + 1 < 2 ^ 32 → b.stableIDs.lookup t = some (BitVec.ofNat 32 (i + 1))
  bwd : ∀ t id, b.stableIDs.lookup t = some id → id ≠ 0 ∧ b.types[id.toNat - 1]? = some t
  nonvoid : ∀ t ∈ b.types, g t ≠ .void

theorem binv_empty (g : Graph R) : BInv g (TypeBuilder.empty : TypeBuilder R) :=
  ⟨by simp [TypeBuilder.empty], by simp [TypeBuilder.empty], by simp [TypeBuilder.empty]⟩

/-- What one `Add` does: the ID returned is the one in the map from now on, existing IDs stay as they are, and it fails only when IDs are exhausted. -/
structure Added (b b' : TypeBuilder R) (t : R) (r : Option (BitVec 32)) : Prop where
  got : ∀ id, r = some id → b'.stableIDs.lookup t = some id
  keep : ∀ u id, b.stableIDs.lookup u = some id → b'.stableIDs.lookup u = some id
  fail : r = none → 2 ^ 32 ≤ b'.types.length
  pre : b.types <+: b'.types

theorem addOne_spec (g : Graph R) (b b' : TypeBuilder R) (t : R) (r : Option (BitVec 32)) (hb : BInv g b) (ht : g t ≠ .void)
    (h : b.addOne t = (r, b')) : BInv g b' ∧ Added b b' t r := by
  unfold TypeBuilder.addOne at h
  split at h
  · rename_i id hid
    cases h
    exact ⟨hb, ⟨fun i e => by cases e; exact hid, fun _ _ e => e, by simp, List.prefix_refl _⟩⟩
  · rename_i hn
    split at h
    · rename_i hov
      cases h
      have hlen : 2 ^ 32 ≤ b.types.length + 1 := by
        simp only [BitVec.toNat_ofNat] at hov
        rcases Nat.lt_or_ge (b.types.length + 1) (2 ^ 32) with h | h
        · exact absurd (Nat.mod_eq_of_lt h) hov
        · exact h
      refine ⟨⟨?_, ?_, ?_⟩, ⟨by simp, fun _ _ e => e, by simp; omega, ⟨[t], rfl⟩⟩⟩
      · intro i u hu hi
        rw [getElem?_snoc] at hu
        rcases hu with hu | ⟨rfl, _⟩
        · exact hb.fwd i u hu hi
        · omega
      · intro u id hu
        refine ⟨(hb.bwd u id hu).1, ?_⟩
        rw [getElem?_snoc]; exact .inl (hb.bwd u id hu).2
      · intro u hu
        simp at hu; rcases hu with hu | rfl
        · exact hb.nonvoid u hu
        · exact ht
    · rename_i hov
      cases h
      have hlen : b.types.length + 1 < 2 ^ 32 := by
        simp only [BitVec.toNat_ofNat, Decidable.not_not] at hov
        rw [← hov]; exact Nat.mod_lt _ (by omega)
      have hnum : Numbers (List.lookup · b.stableIDs) b.types :=
        ⟨fun i u hu => hb.fwd i u hu (by have := getElem?_lt hu; omega), hb.bwd⟩
      have := numbers_snoc _ _ t hnum hn hlen
      refine ⟨⟨fun i u hu _ => this.1 i u hu, this.2, ?_⟩, ⟨?_, ?_, by simp, ⟨[t], rfl⟩⟩⟩
      · intro u hu
        simp at hu; rcases hu with hu | rfl
        · exact hb.nonvoid u hu
        · exact ht
      · intro id e; cases e; simp
      · intro u id hu
        by_cases e : u = t
        · subst e; rw [hn] at hu; cases hu
        · rw [List.lookup_cons]
          have : (u == t) = false := by simp [e]
          rw [this]; exact hu

theorem addMany_spec (g : Graph R) : ∀ (ts : List R) (b b' : TypeBuilder R) (ok : Bool), BInv g b → (∀ t ∈ ts, g t ≠ .void) →
    b.addMany ts = (ok, b') → BInv g b' ∧ (∀ u id, b.stableIDs.lookup u = some id → b'.stableIDs.lookup u = some id) ∧
      (ok = false → 2 ^ 32 ≤ b'.types.length) ∧ b.types <+: b'.types
  | [], b, b', ok, hb, _, h => by
    cases h; exact ⟨hb, fun _ _ e => e, by simp, List.prefix_refl _⟩
  | t :: ts, b, b', ok, hb, hv, h => by
    unfold TypeBuilder.addMany at h
    cases h1 : b.addOne t with
    | mk r b1 =>
      rw [h1] at h
      have := addOne_spec g b b1 t r hb (hv t (by simp)) h1
      cases r with
      | none => cases h; exact ⟨this.1, this.2.keep, fun _ => this.2.fail rfl, this.2.pre⟩
      | some id =>
        have ih := addMany_spec g ts b1 b' ok this.1 (fun u hu => hv u (by simp [hu])) h
        exact ⟨ih.1, fun u id e => ih.2.1 u id (this.2.keep u id e), ih.2.2.1, this.2.pre.trans ih.2.2.2⟩

theorem datasecQualified_nonvoid (g : Graph R) (vars : List (VarSecinfo R)) : ∀ t ∈ datasecQualified g vars, g t ≠ .void := by
  intro t ht hv
  simp only [datasecQualified, List.mem_filterMap] at ht
  obtain ⟨vsi, _, h⟩ := ht
  split at h
  · split at h <;> cases h <;> simp_all
  · cases h

theorem add_spec (g : Graph R) (b b' : TypeBuilder R) (t : R) (r : Option (BitVec 32)) (hb : BInv g b)
    (h : b.add g t = (r, b')) : BInv g b' ∧ (∀ u id, b.stableIDs.lookup u = some id → b'.stableIDs.lookup u = some id) ∧
      (∀ id, r = some id → if g t = .void then id = 0 else b'.stableIDs.lookup t = some id) ∧ (r = none → 2 ^ 32 ≤ b'.types.length) ∧
      b.types <+: b'.types := by
  unfold TypeBuilder.add at h
  split at h
  · rename_i hv
    cases h
    exact ⟨hb, fun _ _ e => e, fun id e => by simp at e; simp [hv, e], by simp, List.prefix_refl _⟩
  · rename_i n s vars hd
    have hv : g t ≠ .void := by rw [hd]; simp
    cases h1 : b.addMany (datasecQualified g vars) with
    | mk ok b1 =>
      have m := addMany_spec g _ b b1 ok hb (datasecQualified_nonvoid g vars) h1
      rw [h1] at h
      cases ok with
      | false => cases h; exact ⟨m.1, m.2.1, by simp, fun _ => m.2.2.1 rfl, m.2.2.2⟩
      | true =>
        have a := addOne_spec g b1 b' t r m.1 hv h
        exact ⟨a.1, fun u id e => a.2.keep u id (m.2.1 u id e), fun id e => by rw [if_neg hv]; exact a.2.got id e, a.2.fail, m.2.2.2.trans a.2.pre⟩
  · rename_i hv _
    have hv' : g t ≠ .void := by intro e; exact hv e
    have a := addOne_spec g b b' t r hb hv' h
    exact ⟨a.1, a.2.keep, fun id e => by rw [if_neg hv']; exact a.2.got id e, a.2.fail, a.2.pre⟩

/-- A history of `Add` calls and their results. -/
def addAllTypes (g : Graph R) : TypeBuilder R → List R → List (Option (BitVec 32)) × TypeBuilder R
  | b, [] => ([], b)
  | b, t :: ts => ((b.add g t).1 :: (addAllTypes g (b.add g t).2 ts).1, (addAllTypes g (b.add g t).2 ts).2)

theorem addAll_spec (g : Graph R) : ∀ (ts : List R) (b : TypeBuilder R), BInv g b →
    BInv g (addAllTypes g b ts).2 ∧ (∀ u id, b.stableIDs.lookup u = some id → (addAllTypes g b ts).2.stableIDs.lookup u = some id) ∧
    (∀ (i : Nat) t id, ts[i]? = some t → (addAllTypes g b ts).1[i]? = some (some id) →
      if g t = .void then id = 0 else (addAllTypes g b ts).2.stableIDs.lookup t = some id) ∧
    (none ∈ (addAllTypes g b ts).1 → 2 ^ 32 ≤ (addAllTypes g b ts).2.types.length) ∧ b.types <+: (addAllTypes g b ts).2.types
  | [], b, hb => ⟨hb, fun _ _ e => e, by simp, by simp [addAllTypes], List.prefix_refl _⟩
  | t :: ts, b, hb => by
    have a := add_spec g b (b.add g t).2 t (b.add g t).1 hb rfl
    have ih := addAll_spec g ts (b.add g t).2 a.1
    simp only [addAllTypes]
    refine ⟨ih.1, fun u id e => ih.2.1 u id (a.2.1 u id e), ?_, ?_, a.2.2.2.2.trans ih.2.2.2.2⟩
    · intro i u id hu hid
      cases i with
      | zero =>
        simp at hu hid; subst hu
        have := a.2.2.1 id hid
        split
        · rename_i hv; simpa [hv] using this
        · rename_i hv; rw [if_neg hv] at this; exact ih.2.1 _ _ this
      | succ i => simp at hu hid; exact ih.2.2.1 i u id hu hid
    · intro h
      simp at h
      rcases h with h | h
      · exact Nat.le_trans (a.2.2.2.1 h.symm) ih.2.2.2.2.length_le
      · exact ih.2.2.2.1 h

/-- C27: over any history of `Add` calls on a new builder, two calls return the same ID iff they were given the same type (or Void both times); Void has ID 0 and
other types do not, and the ID of a type is its position in the list of added types. -/
theorem add_ids (g : Graph R) (ts : List R) (i j : Nat) (t u : R) (a b : BitVec 32)
    (hi : ts[i]? = some t) (hj : ts[j]? = some u)
    (ha : (addAllTypes g .empty ts).1[i]? = some (some a)) (hb : (addAllTypes g .empty ts).1[j]? = some (some b)) :
    (a = b ↔ t = u ∨ (g t = .void ∧ g u = .void)) ∧ (a = 0 ↔ g t = .void) ∧
    (a ≠ 0 → (addAllTypes g .empty ts).2.types[a.toNat - 1]? = some t) := by
  have s := addAll_spec g ts .empty (binv_empty g)
  have ra := s.2.2.1 i t a hi ha
  have rb := s.2.2.1 j u b hj hb
  by_cases ht : g t = .void
  · rw [if_pos ht] at ra; subst ra
    refine ⟨?_, by simp [ht], by simp⟩
    by_cases hu : g u = .void
    · rw [if_pos hu] at rb; subst rb; simp [ht, hu]
    · rw [if_neg hu] at rb
      have := (s.1.bwd u b rb).1
      refine ⟨fun e => absurd e.symm this, ?_⟩
      rintro (rfl | ⟨_, h⟩)
      · exact absurd ht hu
      · exact absurd h hu
  · rw [if_neg ht] at ra
    have hz := s.1.bwd t a ra
    refine ⟨?_, ⟨fun e => absurd e hz.1, fun e => absurd e ht⟩, fun _ => hz.2⟩
    by_cases hu : g u = .void
    · rw [if_pos hu] at rb; subst rb
      refine ⟨fun e => absurd e hz.1, ?_⟩
      rintro (rfl | ⟨h, _⟩)
      · exact absurd hu ht
      · exact absurd h ht
    · rw [if_neg hu] at rb
      have hw := s.1.bwd u b rb
      constructor
      · rintro rfl; rw [hz.2] at hw; exact .inl (Option.some.inj hw.2)
      · rintro (rfl | ⟨h, _⟩)
        · rw [ra] at rb; exact Option.some.inj rb
        · exact absurd h ht

/-- C27: `Add` fails only after 2^32 - 1 types. -/
theorem add_succeeds (g : Graph R) (ts : List R) (h : (addAllTypes g .empty ts).2.types.length < 2 ^ 32) :
    none ∉ (addAllTypes g .empty ts).1 := by
  intro h'
  have := (addAll_spec g ts .empty (binv_empty g)).2.2.2.1 h'
  omega

/-! ## Marshalling -/

/-- The encoder after the types `done` were written: types written and to be written are numbered without gaps, and everything visited is among them. -/
structure EInv (g : Graph R) (done : List (TRef R)) (e : Enc R) : Prop where
  nodup : (done ++ e.pending).Nodup
  num : Numbers (List.lookup · e.ids) (done ++ e.pending)
  last : e.lastID.toNat = (done ++ e.pending).length
  nonvoid : ∀ t ∈ done ++ e.pending, extGraph g t ≠ .void
  closed : ∀ v ∈ e.visited, ∀ c ∈ children g v, c ∈ e.visited
  seen : ∀ v ∈ e.visited, extGraph g v ≠ .void → v ∈ done ++ e.pending
  wrote : ∀ t ∈ done, t ∈ e.visited

theorem numbers_mem {α} {ids : α → Option (BitVec 32)} {order : List α} (h : Numbers ids order) {t : α} (ht : t ∈ order) : ∃ id, ids t = some id := by
  obtain ⟨i, hi, rfl⟩ := List.getElem_of_mem ht
  exact ⟨_, h.1 i _ (List.getElem?_eq_getElem hi)⟩

/-- The result of handing out IDs to `ts`. -/
structure Assigned (g : Graph R) (done ts : List (TRef R)) (e e' : Enc R) : Prop where
  nodup : (done ++ e'.pending).Nodup
  num : Numbers (List.lookup · e'.ids) (done ++ e'.pending)
  last : e'.lastID.toNat = (done ++ e'.pending).length
  nonvoid : ∀ t ∈ done ++ e'.pending, extGraph g t ≠ .void
  all : ∀ t ∈ ts, extGraph g t ≠ .void → t ∈ done ++ e'.pending
  grow : ∃ new, e'.pending = e.pending ++ new ∧ (∀ t ∈ new, t ∈ ts)
  same : e'.visited = e.visited ∧ e'.strings = e.strings

theorem assignIDs_spec (g : Graph R) (done : List (TRef R)) : ∀ (ts : List (TRef R)) (e e' : Enc R),
    (done ++ e.pending).Nodup → Numbers (List.lookup · e.ids) (done ++ e.pending) → e.lastID.toNat = (done ++ e.pending).length →
    (∀ t ∈ done ++ e.pending, extGraph g t ≠ .void) →
    assignIDs g ts e = some e' → Assigned g done ts e e'
  | [], e, e', h1, h2, h3, h4, h => by
    cases h
    exact ⟨h1, h2, h3, h4, by simp, ⟨[], by simp⟩, rfl, rfl⟩
  | t :: ts, e, e', h1, h2, h3, h4, h => by
    unfold assignIDs at h
    split at h
    · rename_i hv
      have a := assignIDs_spec g done ts e e' h1 h2 h3 h4 h
      obtain ⟨new, hn, hm⟩ := a.grow
      exact ⟨a.nodup, a.num, a.last, a.nonvoid, fun u hu hnv => by
        simp at hu
        rcases hu with rfl | hu
        · exact absurd hv hnv
        · exact a.all u hu hnv, ⟨new, hn, fun u hu => by simp [hm u hu]⟩, a.same⟩
    · rename_i hv
      split at h
      · rename_i hs
        have a := assignIDs_spec g done ts e e' h1 h2 h3 h4 h
        obtain ⟨new, hn, hm⟩ := a.grow
        refine ⟨a.nodup, a.num, a.last, a.nonvoid, fun u hu hnv => ?_, ⟨new, hn, fun u hu => by simp [hm u hu]⟩, a.same⟩
        simp at hu
        rcases hu with rfl | hu
        · obtain ⟨id, hid⟩ := Option.isSome_iff_exists.1 hs
          have := List.mem_of_getElem? (h2.2 u id hid).2
          rw [hn, ← List.append_assoc]
          exact List.mem_append_left _ this
        · exact a.all u hu hnv
      · rename_i hs
        have hs' : List.lookup t e.ids = none := by
          cases hq : List.lookup t e.ids with
          | none => rfl
          | some _ => rw [hq] at hs; simp at hs
        split at h
        · cases h
        · rename_i hov
          have hlt := e.lastID.isLt
          have hsum : (e.lastID + 1).toNat = e.lastID.toNat + 1 ∧ e.lastID.toNat + 1 < 2 ^ 32 := by
            rw [BitVec.lt_def, BitVec.toNat_add] at hov
            rw [BitVec.toNat_add]
            simp at hov ⊢
            omega
          have hnot : t ∉ done ++ e.pending := by
            intro hm
            obtain ⟨id, hid⟩ := numbers_mem h2 hm
            rw [hs'] at hid; cases hid
          have hid : e.lastID + 1 = BitVec.ofNat 32 ((done ++ e.pending).length + 1) := by
            apply BitVec.eq_of_toNat_eq
            rw [hsum.1, h3, BitVec.toNat_ofNat, Nat.mod_eq_of_lt (by omega)]
          have n2 := numbers_snoc e.ids (done ++ e.pending) t h2 hs' (by omega)
          rw [← hid] at n2
          have hassoc : done ++ (e.pending ++ [t]) = (done ++ e.pending) ++ [t] := by simp
          have a := assignIDs_spec g done ts { e with pending := e.pending ++ [t], ids := (t, e.lastID + 1) :: e.ids, lastID := e.lastID + 1 } e'
            (by
              show (done ++ (e.pending ++ [t])).Nodup
              rw [hassoc, List.nodup_append]
              refine ⟨h1, by simp, ?_⟩
              intro x hx y hy
              simp at hy; subst hy
              rintro rfl; exact hnot hx)
            (by
              show Numbers _ (done ++ (e.pending ++ [t]))
              rw [hassoc]; exact n2)
            (by show (e.lastID + 1).toNat = (done ++ (e.pending ++ [t])).length; rw [hsum.1, h3]; simp; omega)
            (by
              intro u hu
              replace hu : u ∈ done ++ (e.pending ++ [t]) := hu
              rw [hassoc] at hu; simp only [List.mem_append, List.mem_singleton] at hu
              rcases hu with hu | rfl
              · exact h4 u (by simp; exact hu)
              · exact hv) h
          obtain ⟨new, hn, hm⟩ := a.grow
          refine ⟨a.nodup, a.num, a.last, a.nonvoid, ?_, ⟨t :: new, by simpa using hn, ?_⟩, a.same⟩
          · intro u hu hnv
            simp at hu
            rcases hu with rfl | hu
            · rw [hn]; simp
            · exact a.all u hu hnv
          · intro u hu
            simp at hu
            rcases hu with rfl | hu
            · simp
            · simp [hm u hu]

/-- One call of `allocateIDs`. -/
theorem allocateIDs_spec (g : Graph R) (fuel : Nat) (root : TRef R) (done : List (TRef R)) (e e' : Enc R)
    (h1 : EInv g done e) (h : allocateIDs g fuel root e = some e') :
    EInv g done e' ∧ root ∈ e'.visited ∧ (∃ new, e'.pending = e.pending ++ new ∧ ∀ t ∈ new, Reach (children g) root t) ∧ e'.strings = e.strings := by
  unfold allocateIDs at h
  cases hv : visit (children g) fuel root e.visited with
  | none => rw [hv] at h; cases h
  | some p =>
    obtain ⟨out, vis⟩ := p
    rw [hv] at h
    have v := visit_visited (children g) _ _ _ _ _ hv
    have a := assignIDs_spec g done out { e with visited := vis } e' h1.nodup h1.num h1.last h1.nonvoid h
    have hvis : e'.visited = vis := a.same.1
    obtain ⟨new, hn, hm⟩ := a.grow
    refine ⟨⟨a.nodup, a.num, a.last, a.nonvoid, ?_, ?_, ?_⟩, ?_, ⟨new, hn, ?_⟩, a.same.2⟩
    · rw [hvis]
      intro x hx c hc
      rcases (v.mem x).1 hx with h | h
      · exact (v.mem c).2 (.inl (h1.closed x h c hc))
      · exact v.closed x h c hc
    · rw [hvis]
      intro x hx hnv
      rcases (v.mem x).1 hx with h | h
      · have := h1.seen x h hnv
        rw [hn, ← List.append_assoc]; exact List.mem_append_left _ this
      · exact a.all x h hnv
    · rw [hvis]
      intro t ht
      exact (v.mem t).2 (.inl (h1.wrote t ht))
    · rw [hvis]; exact v.start root (by simp)
    · intro t ht
      obtain ⟨r, hr, hrt⟩ := v.reach t (hm t ht)
      simp at hr; subst hr; exact hrt

/-- `ph` is the placeholder for an enum that is written as a union. -/
def IsPlaceholder (o : Opts) (g : Graph R) (t : TRef R) : Prop :=
  ∃ r n sg vs, t = .ph r ∧ g r = .enum n 8 sg vs ∧ o.replaceEnum64 = true

theorem allocatePlaceholder_spec (o : Opts) (g : Graph R) (fuel : Nat) (root : TRef R) (done : List (TRef R)) (e e' : Enc R)
    (h1 : EInv g done e) (h : allocatePlaceholder o g fuel root e = some e') :
    EInv g done e' ∧ (∀ v ∈ e.visited, v ∈ e'.visited) ∧ e'.strings = e.strings ∧
      (∃ new, e'.pending = e.pending ++ new ∧ ∀ t ∈ new, IsPlaceholder o g t ∧ ∃ r, root = .obj r ∧ t = .ph r) ∧
      (∀ r n sg vs, root = .obj r → g r = .enum n 8 sg vs → o.replaceEnum64 = true → .ph r ∈ done ++ e'.pending) := by
  have vis_mono : ∀ ro, allocateIDs g fuel ro e = some e' → ∀ v ∈ e.visited, v ∈ e'.visited := by
    intro ro ha v hv
    unfold allocateIDs at ha
    cases hw : visit (children g) fuel ro e.visited with
    | none => rw [hw] at ha; cases ha
    | some p =>
      obtain ⟨out, vis⟩ := p
      rw [hw] at ha
      have w := visit_visited (children g) _ _ _ _ _ hw
      have a := assignIDs_spec g done out { e with visited := vis } e' h1.nodup h1.num h1.last h1.nonvoid ha
      rw [a.same.1]; exact (w.mem v).2 (.inl hv)
  unfold allocatePlaceholder at h
  split at h
  · rename_i r
    split at h
    · rename_i n size sg vs hg
      split at h
      · rename_i hc
        have hsize : size = 8 := hc.1
        subst hsize
        have a := allocateIDs_spec g fuel _ done e e' h1 h
        refine ⟨a.1, vis_mono _ h, a.2.2.2, ?_, ?_⟩
        · obtain ⟨new, hn, hm⟩ := a.2.2.1
          refine ⟨new, hn, ?_⟩
          intro t ht
          have := hm t ht
          cases this with
          | refl => exact ⟨⟨r, n, sg, vs, rfl, hg, hc.2⟩, r, rfl, rfl⟩
          | step h' _ => simp [children] at h'
        · intro r' n' sg' vs' e1 e2 _
          cases e1
          exact a.1.seen _ a.2.1 (by simp [extGraph, hg])
      · rename_i hc
        cases h
        refine ⟨h1, fun _ h => h, rfl, ⟨[], by simp⟩, ?_⟩
        intro r' n' sg' vs' e1 e2 e3
        cases e1
        rw [hg] at e2; cases e2
        exact absurd ⟨rfl, e3⟩ hc
    · rename_i hg
      cases h
      refine ⟨h1, fun _ h => h, rfl, ⟨[], by simp⟩, ?_⟩
      intro r' n' sg' vs' e1 e2 e3
      cases e1
      exact absurd e2 (hg _ _ _ _)
  · rename_i hg
    cases h
    refine ⟨h1, fun _ h => h, rfl, ⟨[], by simp⟩, ?_⟩
    intro r' n' sg' vs' e1 e2 e3
    exact absurd e1 (hg _)

/-- What writing all pending types achieves. -/
structure Written (o : Opts) (g : Graph R) (done : List (TRef R)) (e : Enc R) (out : List (TRef R)) (e' : Enc R) : Prop where
  inv : EInv g (done ++ out) e'
  empty : e'.pending = []
  pre : e.pending <+: out
  reach : ∀ t ∈ out, (∃ r ∈ e.pending, Reach (children g) r t) ∨ (∃ r ∈ out, ∃ s, r = .obj s ∧ t = .ph s ∧ IsPlaceholder o g t)
  ph : ∀ r n sg vs, .obj r ∈ out → g r = .enum n 8 sg vs → o.replaceEnum64 = true → .ph r ∈ done ++ out

/-- Handing out IDs to what the next pending type refers to. -/
theorem deflatePending_alloc' (g : Graph R) (fuel : Nat) (root : TRef R) (pending done : List (TRef R)) (e e1 : Enc R) (hp : e.pending = root :: pending)
    (h1 : EInv g done e) (ha : allocateIDs g fuel root { e with pending := pending } = some e1) :
    EInv g (done ++ [root]) e1 ∧ (∃ new, e1.pending = pending ++ new ∧ ∀ t ∈ new, Reach (children g) root t) := by
  have hassoc : done ++ root :: pending = (done ++ [root]) ++ pending := by simp
  unfold allocateIDs at ha
  cases hv : visit (children g) fuel root e.visited with
  | none => simp only [hv] at ha; cases ha
  | some p =>
    obtain ⟨out, vis⟩ := p
    simp only [hv] at ha
    have v := visit_visited (children g) _ _ _ _ _ hv
    have i1 := h1.nodup; have i2 := h1.num; have i3 := h1.last; have i4 := h1.nonvoid
    have i5 := h1.seen
    rw [hp, hassoc] at i1 i2 i3 i4 i5
    have a := assignIDs_spec g (done ++ [root]) out { e with pending := pending, visited := vis } e1 i1 i2 i3 i4 ha
    have hvis : e1.visited = vis := a.same.1
    obtain ⟨new, hn, hm⟩ := a.grow
    refine ⟨⟨a.nodup, a.num, a.last, a.nonvoid, ?_, ?_, ?_⟩, ⟨new, hn, ?_⟩⟩
    · rw [hvis]
      intro x hx c hc
      rcases (v.mem x).1 hx with h | h
      · exact (v.mem c).2 (.inl (h1.closed x h c hc))
      · exact v.closed x h c hc
    · rw [hvis]
      intro x hx hnv
      rcases (v.mem x).1 hx with h | h
      · have := i5 x h hnv
        rw [hn, ← List.append_assoc]; exact List.mem_append_left _ this
      · exact a.all x h hnv
    · rw [hvis]
      intro t ht
      simp at ht
      rcases ht with ht | rfl
      · exact (v.mem t).2 (.inl (h1.wrote t ht))
      · exact v.start t (by simp)
    · intro t ht
      obtain ⟨r, hr, hrt⟩ := v.reach t (hm t ht)
      simp at hr; subst hr; exact hrt

theorem deflatePending_alloc (g : Graph R) (fuel : Nat) (root : TRef R) (pending done : List (TRef R)) (e e1 : Enc R) (hp : e.pending = root :: pending)
    (h1 : EInv g done e) (ha : allocateIDs g fuel root { e with pending := pending } = some e1) : EInv g (done ++ [root]) e1 :=
  (deflatePending_alloc' g fuel root pending done e e1 hp h1 ha).1

theorem deflatePending_spec (o : Opts) (bo : ByteOrder) (g : Graph R) (fuel : Nat) : ∀ (n : Nat) (done : List (TRef R)) (e e' : Enc R) (recs),
    EInv g done e → deflatePending o bo g fuel n e = some (recs, e') → Written o g done e (recs.map (·.1)) e' := by
  intro n
  induction n with
  | zero =>
    intro done e e' recs h1 h
    unfold deflatePending at h
    split at h
    · rename_i hp
      cases h
      exact ⟨by simpa using h1, hp, by simp [hp], by simp, by simp⟩
    · cases h
  | succ n ih =>
    intro done e e' recs h1 h
    unfold deflatePending at h
    split at h
    · rename_i hp
      cases h
      exact ⟨by simpa using h1, hp, by simp [hp], by simp, by simp⟩
    · rename_i root pending hp
      dsimp only at h
      cases ha : allocateIDs g fuel root { e with pending := pending } with
      | none => rw [ha] at h; cases h
      | some e1 =>
        rw [ha] at h; dsimp only at h
        -- the root has left the queue but is not in `visited` before `allocateIDs`
        have key := deflatePending_alloc' g fuel root pending done e e1 hp h1 ha
        obtain ⟨k1, new1, hn1, hr1⟩ := key
        cases hb : allocatePlaceholder o g fuel root e1 with
        | none => rw [hb] at h; cases h
        | some e2 =>
          rw [hb] at h; dsimp only at h
          obtain ⟨k2, _, _, ⟨new2, hn2, hr2⟩, hph⟩ := allocatePlaceholder_spec o g fuel root (done ++ [root]) e1 e2 k1 hb
          cases hd : deflateType o bo (e2.id g) (placeholderOf root) (extGraph g root) e2.strings with
          | none => rw [hd] at h; cases h
          | some q =>
            obtain ⟨raw, data, sb⟩ := q
            rw [hd] at h; dsimp only at h
            cases hrest : deflatePending o bo g fuel n { e2 with strings := sb } with
            | none => rw [hrest] at h; cases h
            | some q =>
              obtain ⟨rest, e3⟩ := q
              rw [hrest] at h
              cases h
              have w := ih (done ++ [root]) { e2 with strings := sb } e' rest
                ⟨k2.nodup, k2.num, k2.last, k2.nonvoid, k2.closed, k2.seen, k2.wrote⟩ hrest
              refine ⟨?_, w.empty, ?_, ?_, ?_⟩
              · simpa using w.inv
              · have := w.pre
                dsimp only at this
                rw [hn2, hn1] at this
                rw [hp]
                simp only [List.map_cons]
                obtain ⟨tl, htl⟩ := this
                exact ⟨new1 ++ new2 ++ tl, by rw [← htl]; simp⟩
              · intro t ht
                simp only [List.map_cons, List.mem_cons] at ht
                rcases ht with rfl | ht
                · left; exact ⟨_, by simp [hp], .refl _⟩
                · rcases w.reach t ht with ⟨r, hr, hrt⟩ | ⟨r, hr, s, h1', h2', h3'⟩
                  · replace hr : r ∈ e2.pending := hr
                    rw [hn2, hn1] at hr
                    simp only [List.mem_append] at hr
                    rcases hr with (hr | hr) | hr
                    · left; exact ⟨r, by simp [hp, hr], hrt⟩
                    · left; exact ⟨root, by simp [hp], Reach.trans _ (hr1 r hr) hrt⟩
                    · right
                      obtain ⟨hpl, s, e1', e2'⟩ := hr2 r hr
                      subst e2'
                      cases hrt with
                      | refl => exact ⟨root, by simp, s, e1', rfl, hpl⟩
                      | step h' _ => simp [children] at h'
                  · right; exact ⟨r, by simp only [List.map_cons, List.mem_cons]; exact .inr hr, s, h1', h2', h3'⟩
              · intro r nm sg vs hr hg ho
                simp only [List.map_cons, List.mem_cons] at hr
                rcases hr with hr | hr
                · have := hph r nm sg vs hr.symm hg ho
                  obtain ⟨tl, htl⟩ := w.pre
                  simp only [List.map_cons, List.mem_append, List.mem_cons, List.not_mem_nil, or_false] at this ⊢
                  rcases this with (h | h) | h
                  · exact .inl h
                  · exact .inr (.inl h)
                  · right; right; rw [← htl]; exact List.mem_append_left _ h
                · have := w.ph r nm sg vs hr hg ho
                  simpa using this

/-- The builder's state as the encoder starts. -/
theorem einv_init (g : Graph R) (b : TypeBuilder R) (hb : BInv g b) (hl : b.types.length < 2 ^ 32) : EInv g [] (initEnc b b.types) where
  nodup := by
    have : b.types.Nodup := by
      rw [List.Nodup, List.pairwise_iff_getElem]
      intro i j hi hj hij he
      have f1 := hb.fwd i _ (List.getElem?_eq_getElem hi) (by omega)
      have f2 := hb.fwd j _ (List.getElem?_eq_getElem hj) (by omega)
      rw [he, f2] at f1
      have := congrArg BitVec.toNat (Option.some.inj f1)
      rw [BitVec.toNat_ofNat, BitVec.toNat_ofNat, Nat.mod_eq_of_lt (by omega), Nat.mod_eq_of_lt (by omega)] at this
      omega
    simp only [initEnc, List.nil_append]
    exact List.Pairwise.map _ (fun a b h e => h (by cases e; rfl)) this
  num := by
    have hlook : ∀ (l : List (R × BitVec 32)) (t : R), List.lookup (TRef.obj t) (l.map fun p => (TRef.obj p.1, p.2)) = l.lookup t := by
      intro l t
      induction l with
      | nil => rfl
      | cons p l ih =>
        obtain ⟨p, q⟩ := p
        simp only [List.map_cons, List.lookup_cons, ih]
        by_cases h : t = p
        · simp [h]
        · have h1 : (t == p) = false := by simp [h]
          have h2 : ((TRef.obj t : TRef R) == .obj p) = false := by simp [h]
          rw [h1, h2]
    have hno : ∀ (l : List (R × BitVec 32)) (t : TRef R), (∀ r, t ≠ .obj r) → List.lookup t (l.map fun p => (TRef.obj p.1, p.2)) = none := by
      intro l t ht
      induction l with
      | nil => rfl
      | cons p l ih =>
        have h2 : (t == .obj p.1) = false := by simp [ht]
        simp only [List.map_cons, List.lookup_cons, h2, ih]
    simp only [initEnc, List.nil_append]
    constructor
    · intro i t ht
      rw [List.getElem?_map] at ht
      cases hq : b.types[i]? with
      | none => rw [hq] at ht; cases ht
      | some u =>
        rw [hq] at ht; cases ht
        show List.lookup _ _ = _
        rw [hlook]; exact hb.fwd i u hq (by have := getElem?_lt hq; omega)
    · intro t id h
      replace h : List.lookup t _ = _ := h
      cases t with
      | obj r =>
        rw [hlook] at h
        have := hb.bwd r id h
        exact ⟨this.1, by rw [List.getElem?_map, this.2]; rfl⟩
      | tag => rw [hno _ _ (by simp)] at h; cases h
      | ph => rw [hno _ _ (by simp)] at h; cases h
  last := by simp [initEnc, Nat.mod_eq_of_lt hl]
  nonvoid := by
    intro t ht
    simp [initEnc] at ht
    obtain ⟨r, hr, rfl⟩ := ht
    have := hb.nonvoid r hr
    simp only [extGraph]
    cases hg : g r <;> simp_all [Node.map]
  closed := by simp [initEnc]
  seen := by simp [initEnc]
  wrote := by simp

/-- C27: for any history of `Add`s, if marshalling succeeds then the records written describe, in this order: first the added types, in the order of their IDs, then
others; no type is written twice; the ID used for a type anywhere is its position; and the types written are exactly those
an added type refers to, directly or not, together with a placeholder for each 64-bit enum that is replaced. -/
theorem marshal_ids (o : Opts) (bo : ByteOrder) (g : Graph R) (ts : List R) (fuel n : Nat) (recs : List (TRef R × Bytes)) (e : Enc R)
    (hl : (addAllTypes g .empty ts).2.types.length < 2 ^ 32)
    (h : deflatePending o bo g fuel n (initEnc (addAllTypes g .empty ts).2 (addAllTypes g .empty ts).2.types) = some (recs, e)) :
    (∀ (i : Nat) t a, ts[i]? = some t → (addAllTypes g .empty ts).1[i]? = some (some a) → a ≠ 0 → (recs.map (·.1))[a.toNat - 1]? = some (.obj t)) ∧
    (recs.map (·.1)).Nodup ∧
    Numbers (List.lookup · e.ids) (recs.map (·.1)) ∧
    (∀ u, u ∈ recs.map (·.1) ↔
      (extGraph g u ≠ .void ∧ ∃ t ∈ (addAllTypes g .empty ts).2.types, Reach (children g) (.obj t) u) ∨
      (o.replaceEnum64 = true ∧ ∃ r nm sg vs, u = .ph r ∧ g r = .enum nm 8 sg vs ∧
        ∃ t ∈ (addAllTypes g .empty ts).2.types, Reach (children g) (.obj t) (.obj r))) := by
  have s := addAll_spec g ts .empty (binv_empty g)
  generalize hB : (addAllTypes g .empty ts).2 = b at *
  have w := deflatePending_spec o bo g fuel n [] _ e recs (einv_init g b s.1 hl) h
  have inv := w.inv
  rw [List.nil_append] at inv
  have hord : ∀ t, t ∈ recs.map (·.1) ++ e.pending ↔ t ∈ recs.map (·.1) := by intro t; rw [w.empty]; simp
  have hpend : (initEnc b b.types).pending = b.types.map .obj := rfl
  refine ⟨?_, ?_, ?_, ?_⟩
  · intro i t a hi ha hne
    have := s.2.2.1 i t a hi ha
    split at this
    · exact absurd this hne
    · have hb' := (s.1.bwd t a this).2
      obtain ⟨tl, htl⟩ := w.pre
      rw [← htl, hpend]
      have hlt := getElem?_lt hb'
      rw [List.getElem?_append_left (by simpa using hlt), List.getElem?_map, hb']; rfl
  · have := inv.nodup; rw [w.empty] at this; simpa using this
  · have := inv.num; rw [w.empty] at this; simpa using this
  · -- everything written is visited, so closed under children
    have hreach : ∀ x y, Reach (children g) x y → x ∈ recs.map (·.1) → extGraph g y ≠ .void → y ∈ recs.map (·.1) := by
      intro x y hxy hx hy
      have hc : y ∈ e.visited := reach_closed (children g) e.visited inv.closed hxy (inv.wrote x hx)
      exact (hord y).1 (inv.seen y hc hy)
    have hadd : ∀ t ∈ b.types, TRef.obj t ∈ recs.map (·.1) := by
      intro t ht
      obtain ⟨tl, htl⟩ := w.pre
      rw [← htl, hpend]
      exact List.mem_append_left _ (by simpa using ht)
    intro u
    constructor
    · intro hu
      have hnv := inv.nonvoid u ((hord u).2 hu)
      rcases w.reach u hu with ⟨r, hr, hru⟩ | ⟨r, hr, q, rfl, rfl, hq⟩
      · rw [hpend] at hr; simp at hr
        obtain ⟨t, ht, rfl⟩ := hr
        exact .inl ⟨hnv, t, ht, hru⟩
      · obtain ⟨r', nm, sg, vs, e1, e2, e3⟩ := hq
        cases e1
        right
        refine ⟨e3, q, nm, sg, vs, rfl, e2, ?_⟩
        rcases w.reach _ hr with ⟨r, hr', hru⟩ | ⟨_, _, _, _, e4, _⟩
        · rw [hpend] at hr'; simp at hr'
          obtain ⟨t, ht, rfl⟩ := hr'
          exact ⟨t, ht, hru⟩
        · cases e4
    · rintro (⟨hnv, t, ht, hru⟩ | ⟨ho, r, nm, sg, vs, rfl, hg, t, ht, hru⟩)
      · exact hreach _ _ hru (hadd t ht) hnv
      · have := hreach _ _ hru (hadd t ht) (by simp [extGraph, hg, Node.map])
        simpa using w.ph r nm sg vs this hg ho

/-! A cyclic graph: `struct list { struct list *next; int v; }`, added twice, with its pointer and Void. -/
section Example
def exGraph : Graph Nat
  | 1 => .struct [0x6c] 16 [⟨[0x6e], 2, 0, 0, []⟩, ⟨[0x76], 3, 64, 0, [[0x74]]⟩] []
  | 2 => .ptr 1
  | 3 => .int [0x69] 4 1
  | _ => .void
example : (addAllTypes exGraph .empty [2, 0, 1, 2]).1 = [some 1, some 0, some 2, some 1] := by decide
example : ((deflatePending {} .little exGraph 20 20 (initEnc (addAllTypes exGraph .empty [2, 0, 1, 2]).2 (addAllTypes exGraph .empty [2, 0, 1, 2]).2.types)).map
    fun r => r.1.map (·.1)) = some [.obj 2, .obj 1, .obj 3, .tag 1 [0x74] 1 0] := by decide +kernel
end Example

end Ebpf.Btf
