import Verif.Spec.CoreRelocate
import Verif.Model.CoreRelocate
import Verif.Props.CoreFixup
import Verif.Props.BtfIds
import Verif.Props.BtfTypes
import Verif.Lemmas.Lists
/-! # C95: relocating a program -/
namespace Ebpf.Btf
open Ebpf.Asm Ebpf.Core Ebpf.CoreSpec

section
variable {R E : Type} [DecidableEq R]

/-- Positions, counted from `i`, of the relocations about `t`. -/
def idxs (t : R) : Nat → List (Relo R) → List Nat
  | _, [] => []
  | i, r :: rs => if r.kind ≠ .typeIDLocal ∧ r.typ = t then i :: idxs t (i + 1) rs else idxs t (i + 1) rs

theorem idxs_ge (t : R) : ∀ (rs : List (Relo R)) (i j : Nat), j ∈ idxs t i rs → i ≤ j ∧ ∃ r, rs[j - i]? = some r ∧ r.kind ≠ .typeIDLocal ∧ r.typ = t
  | [], i, j, h => by simp [idxs] at h
  | r :: rs, i, j, h => by
    unfold idxs at h
    have step : j ∈ idxs t (i + 1) rs → i ≤ j ∧ ∃ q, (r :: rs)[j - i]? = some q ∧ q.kind ≠ .typeIDLocal ∧ q.typ = t := by
      intro h
      obtain ⟨h1, q, h2, h3⟩ := idxs_ge t rs (i + 1) j h
      refine ⟨by omega, q, ?_, h3⟩
      rw [show j - i = (j - (i + 1)) + 1 by omega]; simpa using h2
    split at h
    · rename_i hc
      rcases List.mem_cons.1 h with rfl | h
      · exact ⟨Nat.le_refl _, r, by simp, hc⟩
      · exact step h
    · exact step h

theorem idxs_mem (t : R) : ∀ (rs : List (Relo R)) (i k : Nat) (r : Relo R), rs[k]? = some r → r.kind ≠ .typeIDLocal → r.typ = t → i + k ∈ idxs t i rs
  | [], i, k, r, h, _, _ => by simp at h
  | q :: rs, i, 0, r, h, h1, h2 => by
    simp at h; subst h
    unfold idxs; rw [if_pos ⟨h1, h2⟩]; simp
  | q :: rs, i, k + 1, r, h, h1, h2 => by
    have := idxs_mem t rs (i + 1) k r (by simpa using h) h1 h2
    unfold idxs
    rw [show i + (k + 1) = i + 1 + k by omega]
    split
    · exact List.mem_cons_of_mem _ this
    · exact this

theorem idxs_nodup (t : R) : ∀ (rs : List (Relo R)) (i : Nat), (idxs t i rs).Nodup
  | [], i => by simp [idxs]
  | r :: rs, i => by
    unfold idxs
    split
    · refine List.nodup_cons.2 ⟨?_, idxs_nodup t rs (i + 1)⟩
      intro h; have := (idxs_ge t rs (i + 1) i h).1; omega
    · exact idxs_nodup t rs (i + 1)

theorem idxs_length (t : R) : ∀ (rs : List (Relo R)) (i : Nat), (idxs t i rs).length = (about t rs).length
  | [], i => by simp [idxs, about]
  | r :: rs, i => by
    have ih := idxs_length t rs (i + 1)
    unfold idxs
    by_cases h : r.kind ≠ .typeIDLocal ∧ r.typ = t
    · rw [if_pos h, show about t (r :: rs) = r :: about t rs from List.filter_cons_of_pos (by simpa using h)]; simp [ih]
    · rw [if_neg h, show about t (r :: rs) = about t rs from List.filter_cons_of_neg (by simpa using h)]; exact ih

theorem idxs_read (t : R) : ∀ (rs : List (Relo R)) (fs pre : List Fixup), fs.length = rs.length →
    (idxs t pre.length rs).map (fun j => (pre ++ fs)[j]?) = (answersFor t rs fs).map some
  | [], fs, pre, h => by simp [idxs, answersFor]
  | r :: rs, [], pre, h => by simp at h
  | r :: rs, f :: fs, pre, h => by
    have ih := idxs_read t rs fs (pre ++ [f]) (by simpa using h)
    simp only [List.append_assoc, List.singleton_append, List.length_append, List.length_singleton] at ih
    unfold idxs
    by_cases hc : r.kind ≠ .typeIDLocal ∧ r.typ = t
    · rw [if_pos hc]
      have : answersFor t (r :: rs) (f :: fs) = f :: answersFor t rs fs := by
        unfold answersFor; rw [List.zip_cons_cons, List.filter_cons_of_pos (by simpa using hc)]; rfl
      rw [this, List.map_cons, ih]; simp
    · rw [if_neg hc]
      have : answersFor t (r :: rs) (f :: fs) = answersFor t rs fs := by
        unfold answersFor; rw [List.zip_cons_cons, List.filter_cons_of_neg (by simpa using hc)]
      rw [this, ih]

/-! ## Grouping -/

/-- The group of a type, empty if there is none. -/
def groupOf (t : R) (G : List (R × ReloGroup R)) : ReloGroup R := (G.lookup t).getD ⟨[], []⟩

theorem addToGroup_lookup (i : Nat) (r : Relo R) (t : R) : ∀ G : List (R × ReloGroup R),
    (addToGroup i r G).lookup t = if t = r.typ then some ⟨(groupOf t G).relos ++ [r], (groupOf t G).indices ++ [i]⟩ else G.lookup t
  | [] => by
    unfold addToGroup groupOf
    by_cases h : t = r.typ
    · simp [h]
    · have : (t == r.typ) = false := by simpa using h
      rw [List.lookup_cons, this, if_neg h]
  | (u, gr) :: G => by
    have ih := addToGroup_lookup i r t G
    unfold addToGroup
    by_cases hu : u = r.typ
    · rw [if_pos hu]
      by_cases h : t = r.typ
      · subst hu; subst h; simp [groupOf]
      · have : (t == u) = false := by rw [hu]; simpa using h
        rw [if_neg h, List.lookup_cons, List.lookup_cons, this]
    · rw [if_neg hu, List.lookup_cons]
      by_cases htu : t = u
      · subst htu; rw [if_neg hu]; simp
      · have : (t == u) = false := by simpa using htu
        rw [this]; dsimp only
        rw [ih]
        have e : groupOf t ((u, gr) :: G) = groupOf t G := by unfold groupOf; rw [List.lookup_cons, this]
        rw [e, List.lookup_cons, this]

theorem addToGroup_keys (i : Nat) (r : Relo R) : ∀ G : List (R × ReloGroup R),
    (addToGroup i r G).map (·.1) = if r.typ ∈ G.map (·.1) then G.map (·.1) else G.map (·.1) ++ [r.typ]
  | [] => by simp [addToGroup]
  | (u, gr) :: G => by
    have ih := addToGroup_keys i r G
    unfold addToGroup
    by_cases hu : u = r.typ
    · rw [if_pos hu]; simp [hu]
    · rw [if_neg hu, List.map_cons, ih]
      by_cases hm : r.typ ∈ G.map (·.1)
      · rw [if_pos hm, if_pos (by simp only [List.map_cons, List.mem_cons]; exact .inr hm)]; rfl
      · rw [if_neg hm, if_neg (by simp only [List.map_cons, List.mem_cons, not_or]; exact ⟨fun e => hu e.symm, hm⟩)]; rfl

theorem about_cons_pos {t : R} {r : Relo R} {rs : List (Relo R)} (h1 : r.kind ≠ .typeIDLocal) (h2 : r.typ = t) : about t (r :: rs) = r :: about t rs := by
  unfold about; rw [List.filter_cons_of_pos (by simpa using ⟨h1, h2⟩)]

theorem about_cons_neg {t : R} {r : Relo R} {rs : List (Relo R)} (h : ¬ (r.kind ≠ .typeIDLocal ∧ r.typ = t)) : about t (r :: rs) = about t rs := by
  unfold about; rw [List.filter_cons_of_neg (by simpa using h)]

omit [DecidableEq R] in
theorem hasID_mono {g : Graph R} {b b' : TypeBuilder R} (h : b.types <+: b'.types) {t : R} {id : BitVec 32} (hi : HasID g b t id) : HasID g b' t id := by
  rcases hi with h1 | ⟨h1, h2, h3⟩
  · exact .inl h1
  · refine .inr ⟨h1, h2, ?_⟩
    obtain ⟨s, hs⟩ := h
    rw [← hs, List.getElem?_append_left (getElem?_lt h3)]; exact h3

theorem add_hasID (g : Graph R) (b b' : TypeBuilder R) (t : R) (id : BitVec 32) (hb : BInv g b) (h : b.add g t = (some id, b')) :
    BInv g b' ∧ HasID g b' t id ∧ b.types <+: b'.types := by
  obtain ⟨h1, _, h3, _, h5⟩ := add_spec g b b' t (some id) hb h
  refine ⟨h1, ?_, h5⟩
  have := h3 id rfl
  by_cases hv : g t = .void
  · rw [if_pos hv] at this; exact .inl ⟨hv, this⟩
  · rw [if_neg hv] at this; exact .inr ⟨hv, h1.bwd t id this⟩

/-- What the first loop does. -/
structure Collected (g : Graph R) (i : Nat) (relos : List (Relo R)) (b b' : TypeBuilder R) (G G' : List (R × ReloGroup R)) (res res' : List Fixup) : Prop where
  rels : ∀ t, (groupOf t G').relos = (groupOf t G).relos ++ about t relos
  inds : ∀ t, (groupOf t G').indices = (groupOf t G).indices ++ idxs t i relos
  keys : ∀ t, t ∈ G'.map (·.1) → t ∈ G.map (·.1) ∨ about t relos ≠ []
  keys' : ∀ t, about t relos ≠ [] ∨ t ∈ G.map (·.1) → t ∈ G'.map (·.1)
  nodup : (G.map (·.1)).Nodup → (G'.map (·.1)).Nodup
  len : res'.length = res.length
  inv : BInv g b'
  pre : b.types <+: b'.types
  loc : ∀ (k : Nat) r, relos[k]? = some r → r.kind = .typeIDLocal → i + k < res.length →
    r.accs = [] ∧ r.acc = 0 ∧ ∃ id, HasID g b' r.typ id ∧ res'[i + k]? = some ⟨.typeIDLocal, r.id.setWidth 64, id.setWidth 64, false, false⟩
  other : ∀ j, (∀ (k : Nat) r, j = i + k → relos[k]? = some r → r.kind ≠ .typeIDLocal) → res'[j]? = res[j]?

theorem collectLoop_ok (g : Graph R) : ∀ (relos : List (Relo R)) (i : Nat) (b b' : TypeBuilder R) (G G' : List (R × ReloGroup R)) (res res' : List Fixup),
    BInv g b → (collectLoop (E := E) g i relos b G res) = .ok (G', res', b') → Collected g i relos b b' G G' res res'
  | [], i, b, b', G, G', res, res', hb, h => by
    simp only [collectLoop, Except.ok.injEq, Prod.mk.injEq] at h
    obtain ⟨rfl, rfl, rfl⟩ := h
    exact ⟨fun t => by simp [about], fun t => by simp [idxs], fun t h => .inl h, fun t h => by simpa [about] using h, id, rfl, hb,
      List.prefix_refl _, by simp, fun _ _ => rfl⟩
  | r :: relos, i, b, b', G, G', res, res', hb, h => by
    unfold collectLoop at h
    by_cases hk : r.kind = .typeIDLocal
    · rw [if_pos hk] at h
      split at h
      · cases h
      · rename_i hacc
        have hacc : r.accs = [] ∧ r.acc = 0 := by
          constructor
          · exact Decidable.byContradiction fun e => hacc (.inl e)
          · exact Decidable.byContradiction fun e => hacc (.inr e)
        cases ha : b.add g r.typ with
        | mk o b1 =>
          rw [ha] at h
          cases o with
          | none => cases h
          | some id =>
            dsimp only at h
            obtain ⟨a1, a2, a3⟩ := add_hasID g b b1 r.typ id hb ha
            have ih := collectLoop_ok g relos (i + 1) b1 b' G G' _ res' a1 h
            have hneg : ∀ t, about t (r :: relos) = about t relos := fun t => about_cons_neg (fun e => e.1 hk)
            refine ⟨fun t => by rw [hneg]; exact ih.rels t, fun t => ?_, fun t => by rw [hneg]; exact ih.keys t, fun t => by rw [hneg]; exact ih.keys' t,
              ih.nodup, by rw [ih.len]; simp, ih.inv, a3.trans ih.pre, ?_, ?_⟩
            · rw [ih.inds t]
              conv => rhs; unfold idxs
              rw [if_neg (fun e => e.1 hk)]
            · intro k q hq hql hlt
              cases k with
              | zero =>
                simp at hq; subst hq
                refine ⟨hacc.1, hacc.2, id, hasID_mono ih.pre a2, ?_⟩
                rw [ih.other (i + 0) (fun k q e => by omega)]
                simp at hlt
                simp [hlt, hk]
              | succ k =>
                have := ih.loc k q (by simpa using hq) hql (by simp; omega)
                rw [show i + (k + 1) = i + 1 + k by omega]; exact this
            · intro j hj
              have hji : j ≠ i := fun e => hj 0 r (by omega) (by simp) hk
              rw [ih.other j (fun k q e hq => hj (k + 1) q (by omega) (by simpa using hq))]
              rw [List.getElem?_set_ne (by omega)]
    · rw [if_neg hk] at h
      have ih := collectLoop_ok g relos (i + 1) b b' (addToGroup i r G) G' res res' hb h
      have hg : ∀ t, groupOf t (addToGroup i r G) = if t = r.typ then ⟨(groupOf t G).relos ++ [r], (groupOf t G).indices ++ [i]⟩ else groupOf t G := by
        intro t
        conv => lhs; unfold groupOf
        rw [addToGroup_lookup]
        split <;> rfl
      refine ⟨fun t => ?_, fun t => ?_, fun t ht => ?_, fun t ht => ?_, fun hn => ih.nodup ?_, ih.len, ih.inv, ih.pre, ?_, ?_⟩
      · rw [ih.rels t, hg]
        by_cases ht : t = r.typ
        · rw [if_pos ht, about_cons_pos hk ht.symm]; simp
        · rw [if_neg ht, about_cons_neg (fun e => ht e.2.symm)]
      · rw [ih.inds t, hg]
        conv => rhs; unfold idxs
        by_cases ht : t = r.typ
        · rw [if_pos ht, if_pos ⟨hk, ht.symm⟩]; simp
        · rw [if_neg ht, if_neg (fun e => ht e.2.symm)]
      · rcases ih.keys t ht with h1 | h1
        · rw [addToGroup_keys] at h1
          split at h1
          · exact .inl h1
          · simp only [List.mem_append, List.mem_singleton] at h1
            rcases h1 with h1 | h1
            · exact .inl h1
            · exact .inr (by rw [about_cons_pos hk h1.symm]; simp)
        · by_cases e : r.typ = t
          · exact .inr (by rw [about_cons_pos hk e]; simp)
          · exact .inr (by rw [about_cons_neg (fun h => e h.2)]; exact h1)
      · apply ih.keys'
        rw [addToGroup_keys]
        by_cases e : r.typ = t
        · subst e
          right
          split
          · assumption
          · simp
        · rw [about_cons_neg (fun h => e h.2)] at ht
          rcases ht with ht | ht
          · exact .inl ht
          · right; split
            · exact ht
            · exact List.mem_append_left _ ht
      · rw [addToGroup_keys]
        split
        · exact hn
        · rename_i hnot
          rw [List.nodup_append]
          refine ⟨hn, by simp, ?_⟩
          intro a ha b hb e
          simp at hb; subst hb; subst e; exact hnot ha
      · intro k q hq hql hlt
        cases k with
        | zero => simp at hq; subst hq; exact absurd hql hk
        | succ k =>
          have := ih.loc k q (by simpa using hq) hql (by omega)
          rw [show i + (k + 1) = i + 1 + k by omega]; exact this
      · intro j hj
        exact ih.other j (fun k q e hq => hj (k + 1) q (by omega) (by simpa using hq))

/-! ## Solving the groups -/

omit [DecidableEq R] in
theorem writeBack_length : ∀ (is : List Nat) (fs res : List Fixup), (writeBack is fs res).length = res.length
  | [], _, _ => by simp [writeBack]
  | i :: is, [], res => by simp [writeBack]
  | i :: is, f :: fs, res => by simp only [writeBack]; rw [writeBack_length is fs]; simp

omit [DecidableEq R] in
theorem writeBack_other : ∀ (is : List Nat) (fs res : List Fixup) (j : Nat), j ∉ is → (writeBack is fs res)[j]? = res[j]?
  | [], _, _, _, _ => by simp [writeBack]
  | i :: is, [], res, _, _ => by simp [writeBack]
  | i :: is, f :: fs, res, j, h => by
    simp only [writeBack]
    simp only [List.mem_cons, not_or] at h
    rw [writeBack_other is fs _ j h.2, List.getElem?_set_ne (fun e => h.1 e.symm)]

omit [DecidableEq R] in
theorem writeBack_map : ∀ (is : List Nat) (fs res : List Fixup), is.Nodup → (∀ i ∈ is, i < res.length) → fs.length = is.length →
    is.map (fun j => (writeBack is fs res)[j]?) = fs.map some
  | [], fs, res, _, _, h => by
    have : fs = [] := List.length_eq_zero_iff.1 (by simpa using h)
    subst this; rfl
  | i :: is, [], res, _, _, h => by simp at h
  | i :: is, f :: fs, res, hn, hl, h => by
    simp only [writeBack, List.map_cons]
    obtain ⟨hi, hn⟩ := List.nodup_cons.1 hn
    rw [writeBack_map is fs (res.set i f) hn (fun k hk => by simp; exact hl k (by simp [hk])) (by simpa using h)]
    rw [writeBack_other is fs _ i hi, List.getElem?_set_self (hl i (by simp))]

/-- The answers to a group. -/
def solve (g : Graph R) (compute : Relo R → R → Except E Fixup) (targets : List (Target R)) (t : R) (relos : List (Relo R)) : Option (List Fixup) :=
  if (g t).name = [] then none
  else match candidates (newEssentialName (g t).name) targets with
    | .error _ => none
    | .ok types => (calculateFixups Relo.kind compute relos types).toOption

/-- All groups written, with `F` the answers. -/
def writtenAll (F : R → List Fixup) : List (R × ReloGroup R) → List Fixup → List Fixup
  | [], res => res
  | p :: ps, res => writtenAll F ps (writeBack p.2.indices (F p.1) res)

omit [DecidableEq R] in
theorem writtenAll_congr {F F' : R → List Fixup} : ∀ (G : List (R × ReloGroup R)) (res : List Fixup), (∀ p ∈ G, F p.1 = F' p.1) → writtenAll F G res = writtenAll F' G res
  | [], _, _ => rfl
  | p :: ps, res, h => by
    simp only [writtenAll]
    rw [h p (by simp), writtenAll_congr ps _ (fun q hq => h q (by simp [hq]))]

omit [DecidableEq R] in
theorem groupLoop_iff (g : Graph R) (compute : Relo R → R → Except E Fixup) (targets : List (Target R)) : ∀ (G : List (R × ReloGroup R)) (res r : List Fixup)
    (F : R → List Fixup), (∀ p ∈ G, ∀ fs, solve g compute targets p.1 p.2.relos = some fs → F p.1 = fs) →
    (groupLoop g compute targets G res = .ok r ↔ (∀ p ∈ G, (solve g compute targets p.1 p.2.relos).isSome) ∧ r = writtenAll F G res)
  | [], res, r, F, _ => by
    simp only [groupLoop, writtenAll, Except.ok.injEq]
    exact ⟨fun h => ⟨by simp, h.symm⟩, fun h => h.2.symm⟩
  | (t, gr) :: G, res, r, F, hF => by
    have ih := fun res => groupLoop_iff g compute targets G res r F (fun p hp => hF p (by simp [hp]))
    have hF0 := hF (t, gr) (by simp)
    simp only [List.forall_mem_cons, writtenAll]
    unfold groupLoop
    by_cases hn : (g t).name = []
    · have : solve g compute targets t gr.relos = none := by unfold solve; rw [if_pos hn]
      rw [if_pos hn, this]; simp
    · rw [if_neg hn]
      cases hc : candidates (newEssentialName (g t).name) targets with
      | error e =>
        have : solve g compute targets t gr.relos = none := by unfold solve; rw [if_neg hn, hc]
        rw [this]; simp
      | ok types =>
        dsimp only
        cases hx : calculateFixups Relo.kind compute gr.relos types with
        | error e =>
          have : solve g compute targets t gr.relos = none := by unfold solve; rw [if_neg hn, hc]; simp [hx, Except.toOption]
          rw [this]; simp
        | ok fs =>
          have : solve g compute targets t gr.relos = some fs := by unfold solve; rw [if_neg hn, hc]; simp [hx, Except.toOption]
          have hFt : F t = fs := hF0 fs this
          dsimp only
          rw [this, hFt]
          simp only [Option.isSome_some, true_and]
          exact ih _

omit [DecidableEq R] in
theorem writtenAll_length (F : R → List Fixup) : ∀ (G : List (R × ReloGroup R)) (res : List Fixup), (writtenAll F G res).length = res.length
  | [], _ => rfl
  | p :: ps, res => by simp only [writtenAll]; rw [writtenAll_length F ps, writeBack_length]

omit [DecidableEq R] in
theorem writtenAll_other (F : R → List Fixup) : ∀ (G : List (R × ReloGroup R)) (res : List Fixup) (j : Nat), (∀ p ∈ G, j ∉ p.2.indices) →
    (writtenAll F G res)[j]? = res[j]?
  | [], _, _, _ => rfl
  | p :: ps, res, j, h => by
    simp only [writtenAll]
    rw [writtenAll_other F ps _ j (fun q hq => h q (by simp [hq])), writeBack_other _ _ _ j (h p (by simp))]

omit [DecidableEq R] in
theorem writtenAll_group (F : R → List Fixup) : ∀ (G : List (R × ReloGroup R)) (res : List Fixup),
    G.Pairwise (fun p q => ∀ j ∈ p.2.indices, j ∉ q.2.indices) → (∀ p ∈ G, p.2.indices.Nodup ∧ (F p.1).length = p.2.indices.length ∧ ∀ i ∈ p.2.indices, i < res.length) →
    ∀ p ∈ G, p.2.indices.map (fun j => (writtenAll F G res)[j]?) = (F p.1).map some
  | [], _, _, _, p, hp => by simp at hp
  | q :: qs, res, hd, hw, p, hp => by
    simp only [writtenAll]
    obtain ⟨hd1, hd2⟩ := List.pairwise_cons.1 hd
    rcases List.mem_cons.1 hp with rfl | hp
    · rw [← writeBack_map p.2.indices (F p.1) res (hw p (by simp)).1 (hw p (by simp)).2.2 (hw p (by simp)).2.1]
      apply List.map_congr_left
      intro j hj
      exact writtenAll_other F qs _ j (fun q hq => hd1 q hq j hj)
    · exact writtenAll_group F qs _ hd2 (fun q hq => ⟨(hw q (by simp [hq])).1, (hw q (by simp [hq])).2.1, fun i hi => by
        rw [writeBack_length]; exact (hw q (by simp [hq])).2.2 i hi⟩) p hp

theorem lookup_mem_nodup {β : Type} : ∀ (G : List (R × β)), (G.map (·.1)).Nodup → ∀ p ∈ G, G.lookup p.1 = some p.2
  | [], _, p, hp => by simp at hp
  | (k, v) :: G, hn, p, hp => by
    obtain ⟨h1, h2⟩ := List.nodup_cons.1 (show (k :: G.map (·.1)).Nodup from hn)
    rcases List.mem_cons.1 hp with rfl | hp
    · simp
    · have : (p.1 == k) = false := by
        simp only [beq_eq_false_iff_ne, ne_eq]
        intro e
        exact h1 (e ▸ List.mem_map.2 ⟨p, hp, rfl⟩)
      rw [List.lookup_cons, this]
      exact lookup_mem_nodup G h2 p hp

/-- What the groups are after the first loop: one per type, with the relocations about it. -/
structure Groups (relos : List (Relo R)) (G : List (R × ReloGroup R)) : Prop where
  nodup : (G.map (·.1)).Nodup
  mem : ∀ p ∈ G, p.2.relos = about p.1 relos ∧ p.2.indices = idxs p.1 0 relos ∧ about p.1 relos ≠ []
  all : ∀ t, about t relos ≠ [] → t ∈ G.map (·.1)

theorem groups_collected {g : Graph R} {relos : List (Relo R)} {b b' : TypeBuilder R} {G : List (R × ReloGroup R)} {res res' : List Fixup}
    (h : Collected g 0 relos b b' [] G res res') : Groups relos G := by
  have hn := h.nodup (by simp)
  refine ⟨hn, ?_, fun t ht => h.keys' t (.inl ht)⟩
  intro p hp
  have hl := lookup_mem_nodup G hn p hp
  have hg : groupOf p.1 G = p.2 := by unfold groupOf; rw [hl]; rfl
  refine ⟨?_, ?_, ?_⟩
  · rw [← hg, h.rels]; rfl
  · rw [← hg, h.inds]; rfl
  · rcases h.keys p.1 (List.mem_map.2 ⟨p, hp, rfl⟩) with h | h
    · simp at h
    · exact h

theorem groups_perm {relos : List (Relo R)} {G G' : List (R × ReloGroup R)} (hp : G'.Perm G) (h : Groups relos G) : Groups relos G' :=
  ⟨(hp.map _).nodup_iff.2 h.nodup, fun p hm => h.mem p (hp.mem_iff.1 hm), fun t ht => (hp.map _).mem_iff.2 (h.all t ht)⟩

theorem groups_disjoint {relos : List (Relo R)} {G : List (R × ReloGroup R)} (h : Groups relos G) :
    G.Pairwise (fun p q => ∀ j ∈ p.2.indices, j ∉ q.2.indices) := by
  have hn : G.Pairwise (fun p q => p.1 ≠ q.1) := List.pairwise_map.1 h.nodup
  refine List.Pairwise.imp_of_mem ?_ hn
  intro p q hp hq hne j hj hj'
  rw [(h.mem p hp).2.1] at hj
  rw [(h.mem q hq).2.1] at hj'
  obtain ⟨_, r, h1, _, h2⟩ := idxs_ge p.1 relos 0 j hj
  obtain ⟨_, r', h1', _, h2'⟩ := idxs_ge q.1 relos 0 j hj'
  rw [h1] at h1'
  cases h1'
  exact hne (h2.symm.trans h2')

/-- The written slice. -/
theorem writtenAll_spec {relos : List (Relo R)} {G : List (R × ReloGroup R)} (h : Groups relos G) (F : R → List Fixup) (res : List Fixup)
    (hl : res.length = relos.length) (hF : ∀ t, about t relos ≠ [] → (F t).length = (about t relos).length) :
    (writtenAll F G res).length = relos.length ∧ (∀ t, about t relos ≠ [] → answersFor t relos (writtenAll F G res) = F t) ∧
    (∀ (i : Nat) r, relos[i]? = some r → r.kind = .typeIDLocal → (writtenAll F G res)[i]? = res[i]?) := by
  have hlen : (writtenAll F G res).length = relos.length := by rw [writtenAll_length, hl]
  refine ⟨hlen, ?_, ?_⟩
  · intro t ht
    obtain ⟨p, hp, rfl⟩ := List.mem_map.1 (h.all t ht)
    have hm := h.mem p hp
    have := writtenAll_group F G res (groups_disjoint h) (fun q hq => by
      have hq' := h.mem q hq
      rw [hq'.2.1]
      refine ⟨idxs_nodup _ _ _, by rw [idxs_length, hF _ hq'.2.2], ?_⟩
      intro i hi
      obtain ⟨_, r, h1, _⟩ := idxs_ge _ _ _ _ hi
      have := getElem?_lt h1
      omega) p hp
    rw [hm.2.1] at this
    have e := idxs_read p.1 relos (writtenAll F G res) [] hlen
    simp only [List.length_nil, List.nil_append] at e
    rw [this] at e
    exact ((List.map_inj_right (fun _ _ => Option.some.inj)).1 e).symm
  · intro i r hr hk
    apply writtenAll_other
    intro p hp hi
    rw [(h.mem p hp).2.1] at hi
    obtain ⟨_, r', h1, h2, _⟩ := idxs_ge _ _ _ _ hi
    rw [show i - 0 = i from rfl, hr] at h1
    cases h1
    exact h2 hk

/-- The slice doesn't depend on the order of the groups. -/
theorem writtenAll_perm {relos : List (Relo R)} {G G' : List (R × ReloGroup R)} (h : Groups relos G) (hp : G'.Perm G) (F : R → List Fixup) (res : List Fixup)
    (hl : res.length = relos.length) (hF : ∀ t, about t relos ≠ [] → (F t).length = (about t relos).length) :
    writtenAll F G' res = writtenAll F G res := by
  obtain ⟨a1, a2, a3⟩ := writtenAll_spec h F res hl hF
  obtain ⟨b1, b2, b3⟩ := writtenAll_spec (groups_perm hp h) F res hl hF
  apply List.ext_getElem?
  intro i
  by_cases hi : i < relos.length
  · obtain ⟨r, hr⟩ : ∃ r, relos[i]? = some r := ⟨relos[i], by simp [hi]⟩
    by_cases hk : r.kind = .typeIDLocal
    · rw [a3 i r hr hk, b3 i r hr hk]
    · have hm := idxs_mem r.typ relos 0 i r hr hk rfl
      rw [Nat.zero_add] at hm
      have hne : about r.typ relos ≠ [] := by
        intro e
        have := idxs_length r.typ relos 0
        rw [e] at this
        rw [List.length_eq_zero_iff.1 this] at hm
        simp at hm
      have e1 := idxs_read r.typ relos _ [] a1
      have e2 := idxs_read r.typ relos _ [] b1
      simp only [List.length_nil, List.nil_append] at e1 e2
      rw [a2 _ hne] at e1
      rw [b2 _ hne, ← e1] at e2
      have := List.map_inj_left.1 e2 i hm
      exact this
  · rw [List.getElem?_eq_none (by omega), List.getElem?_eq_none (by omega)]

/-! ## `CORERelocate` -/

omit [DecidableEq R] in
theorem candidates_ok (name : Bytes) : ∀ (ts : List (Target R)) (cs : List R), candidates name ts = .ok cs →
    (∀ t ∈ ts, t.typesByName name = .error .notFound ∨ ∃ l, t.typesByName name = .ok l) ∧
    ∀ c, c ∈ cs ↔ ∃ t ∈ ts, ∃ l, t.typesByName name = .ok l ∧ c ∈ l
  | [], cs, h => by simp [candidates] at h; subst h; simp
  | t :: ts, cs, h => by
    unfold candidates at h
    cases ht : t.typesByName name with
    | error e =>
      rw [ht] at h
      by_cases he : e = .notFound
      · subst he
        obtain ⟨h1, h2⟩ := candidates_ok name ts cs h
        refine ⟨by simp only [List.forall_mem_cons]; exact ⟨.inl ht, h1⟩, fun c => (h2 c).trans ?_⟩
        simp only [List.mem_cons, exists_eq_or_imp, ht]
        simp
      · cases e <;> simp_all
    | ok l =>
      rw [ht] at h
      dsimp only at h
      cases hm : candidates name ts with
      | error e => rw [hm] at h; cases h
      | ok more =>
        rw [hm] at h; cases h
        obtain ⟨h1, h2⟩ := candidates_ok name ts more hm
        refine ⟨by simp only [List.forall_mem_cons]; exact ⟨.inr ⟨l, ht⟩, h1⟩, fun c => ?_⟩
        rw [List.mem_append, h2 c]
        simp only [List.mem_cons, exists_eq_or_imp, ht, Except.ok.injEq]
        simp

omit [DecidableEq R] in
theorem candidates_of (name : Bytes) : ∀ (ts : List (Target R)), (∀ t ∈ ts, t.typesByName name = .error .notFound ∨ ∃ l, t.typesByName name = .ok l) →
    ∃ cs, candidates name ts = .ok cs
  | [], _ => ⟨[], rfl⟩
  | t :: ts, h => by
    obtain ⟨h1, h2⟩ := List.forall_mem_cons.1 h
    obtain ⟨cs, hc⟩ := candidates_of name ts h2
    unfold candidates
    rcases h1 with h1 | ⟨l, h1⟩
    · rw [h1]; exact ⟨cs, hc⟩
    · rw [h1]; dsimp only; rw [hc]; exact ⟨_, rfl⟩

theorem checks_iff (k : Kind) : k.checksForExistence = true ↔ AsksExistence k := by
  unfold AsksExistence; cases k <;> simp [Kind.checksForExistence]

omit [DecidableEq R] in
theorem calculate_answers (compute : Relo R → R → Except E Fixup) (relos : List (Relo R)) (cands : List R) (fs : List Fixup)
    (h : calculateFixups Relo.kind compute relos cands = .ok fs) : Answers compute relos cands fs ∧ fs.length = relos.length := by
  obtain ⟨h1, h2⟩ := best_candidate Relo.kind compute relos cands fs h
  rcases h2 with ⟨⟨t, ht, hf⟩, h3, h4⟩ | ⟨rfl, h3⟩
  · exact ⟨⟨h1, .inl ⟨⟨t, ht, hf⟩, h3, h4⟩⟩, fixes_length hf⟩
  · refine ⟨⟨h1, .inr ⟨h3, by simp, ?_⟩⟩, by simp⟩
    intro i r f hr hf
    rw [List.getElem?_map, hr] at hf
    simp only [Option.map_some, Option.some.injEq] at hf
    subst hf
    refine ⟨fun e => (noMatch_spec r.kind).1 ((checks_iff _).2 e), fun e => (noMatch_spec r.kind).2 ?_⟩
    cases hc : r.kind.checksForExistence with
    | false => rfl
    | true => exact absurd ((checks_iff _).1 hc) e

omit [DecidableEq R] in
theorem solve_answers {g : Graph R} {compute : Relo R → R → Except E Fixup} {targets : List (Target R)} {t : R} {relos : List (Relo R)} {fs : List Fixup}
    (h : solve g compute targets t relos = some fs) :
    (g t).name ≠ [] ∧ ∃ cs, candidates (newEssentialName (g t).name) targets = .ok cs ∧ Answers compute relos cs fs ∧ fs.length = relos.length := by
  unfold solve at h
  split at h
  · cases h
  · rename_i hn
    refine ⟨hn, ?_⟩
    cases hc : candidates (newEssentialName (g t).name) targets with
    | error e => rw [hc] at h; cases h
    | ok cs =>
      rw [hc] at h
      cases hx : calculateFixups Relo.kind compute relos cs with
      | error e => simp [hx, Except.toOption] at h
      | ok fs' =>
        simp [hx, Except.toOption] at h
        subst h
        exact ⟨cs, rfl, calculate_answers _ _ _ _ hx⟩

/-- Exactly when `CORERelocate` succeeds, and with what. -/
theorem relocate_iff (g : Graph R) (compute : Target R → Relo R → R → Except E Fixup) (order : List (R × ReloGroup R) → List (R × ReloGroup R))
    (horder : ∀ G, (order G).Perm G) (relos : List (Relo R)) (targets : List (Target R)) (bo : ByteOrder) (b b' : TypeBuilder R) (hb : BInv g b) (fs : List Fixup) :
    coreRelocate g compute order relos targets bo b = .ok (fs, b') ↔
      ∃ first rest G res, targets = first :: rest ∧ (∀ t ∈ targets, t.bo = bo) ∧
        collectLoop (E := E) g 0 relos b [] (List.replicate relos.length zeroFixup) = .ok (G, res, b') ∧ Groups relos G ∧ res.length = relos.length ∧
        (∀ t, about t relos ≠ [] → (solve g (compute first) targets t (about t relos)).isSome) ∧
        fs = writtenAll (fun t => (solve g (compute first) targets t (about t relos)).getD []) G res := by
  have key : ∀ first rest G res, Groups relos G → res.length = relos.length → ∀ r,
      groupLoop g (compute first) (first :: rest) (order G) res = .ok r ↔
        (∀ t, about t relos ≠ [] → (solve g (compute first) (first :: rest) t (about t relos)).isSome) ∧
        r = writtenAll (fun t => (solve g (compute first) (first :: rest) t (about t relos)).getD []) G res := by
    intro first rest G res hG hl r
    have hG' := groups_perm (horder G) hG
    rw [groupLoop_iff g (compute first) (first :: rest) (order G) res r (fun t => (solve g (compute first) (first :: rest) t (about t relos)).getD [])
      (fun p hp fs h => by rw [(hG'.mem p hp).1] at h; simp [h])]
    have hall : (∀ p ∈ order G, (solve g (compute first) (first :: rest) p.1 p.2.relos).isSome) ↔
        (∀ t, about t relos ≠ [] → (solve g (compute first) (first :: rest) t (about t relos)).isSome) := by
      constructor
      · intro h t ht
        obtain ⟨p, hp, rfl⟩ := List.mem_map.1 (hG'.all t ht)
        have := h p hp
        rw [(hG'.mem p hp).1] at this; exact this
      · intro h p hp
        rw [(hG'.mem p hp).1]; exact h _ (hG'.mem p hp).2.2
    rw [hall]
    refine and_congr_right fun h => ?_
    rw [writtenAll_perm hG (horder G) _ res hl (fun t ht => by
      obtain ⟨fs, hfs⟩ := Option.isSome_iff_exists.1 (h t ht)
      obtain ⟨_, _, _, _, hlen⟩ := solve_answers hfs
      rw [hfs]; exact hlen)]
  unfold coreRelocate
  cases targets with
  | nil => simp
  | cons first rest =>
    dsimp only
    by_cases hbo : (first :: rest).any (fun t => bo ≠ t.bo) = true
    · rw [if_pos hbo]
      constructor
      · intro h; cases h
      · rintro ⟨f, r, G, res, _, h, _⟩
        obtain ⟨t, ht, hne⟩ := List.any_eq_true.1 hbo
        have := h t ht
        simp [this] at hne
    · rw [if_neg hbo]
      have hbo' : ∀ t ∈ first :: rest, t.bo = bo := by
        intro t ht
        have := hbo
        simp only [List.any_eq_true, not_exists, not_and, decide_eq_true_eq] at this
        exact (Decidable.not_not.1 (this t ht)).symm
      cases hc : collectLoop (E := E) g 0 relos b [] (List.replicate relos.length zeroFixup) with
      | error e =>
        constructor
        · intro h; cases h
        · rintro ⟨_, _, _, _, _, _, h, _⟩; cases h
      | ok x =>
        obtain ⟨G, res, b1⟩ := x
        have hcol := collectLoop_ok g relos 0 b b1 [] G _ res hb hc
        have hG := groups_collected hcol
        have hl : res.length = relos.length := by rw [hcol.len]; simp
        dsimp only
        constructor
        · intro h
          cases hgl : groupLoop g (compute first) (first :: rest) (order G) res with
          | error e => rw [hgl] at h; cases h
          | ok r =>
            rw [hgl] at h
            cases h
            obtain ⟨h1, h2⟩ := (key first rest G res hG hl fs).1 hgl
            exact ⟨first, rest, G, res, rfl, hbo', rfl, hG, hl, h1, h2⟩
        · rintro ⟨f, r, G', res', e1, _, e2, _, _, h1, h2⟩
          cases e1; cases e2
          rw [(key first rest G res hG hl fs).2 ⟨h1, h2⟩]

/-- **C95.** If `CORERelocate` succeeds, every relocation has its own answer: a local type ID is the one the type has in the BTF the builder produces; the
relocations about each other type are answered consistently by the best of all the types of that essential name in all targets. -/
theorem relocate_correct (g : Graph R) (compute : Target R → Relo R → R → Except E Fixup) (order : List (R × ReloGroup R) → List (R × ReloGroup R))
    (horder : ∀ G, (order G).Perm G) (relos : List (Relo R)) (targets : List (Target R)) (bo : ByteOrder) (b b' : TypeBuilder R) (hb : BInv g b) (fs : List Fixup)
    (h : coreRelocate g compute order relos targets bo b = .ok (fs, b')) :
    fs.length = relos.length ∧ (∀ t ∈ targets, t.bo = bo) ∧ b.types <+: b'.types ∧
    (∀ (i : Nat) r, relos[i]? = some r → r.kind = .typeIDLocal →
      r.accs = [] ∧ r.acc = 0 ∧ ∃ id, HasID g b' r.typ id ∧ fs[i]? = some ⟨.typeIDLocal, r.id.setWidth 64, id.setWidth 64, false, false⟩) ∧
    (∀ t, about t relos ≠ [] → (g t).name ≠ [] ∧ ∃ first cands, targets.head? = some first ∧
      (∀ c, c ∈ cands ↔ ∃ tg ∈ targets, ∃ l, tg.typesByName (newEssentialName (g t).name) = .ok l ∧ c ∈ l) ∧
      (∀ tg ∈ targets, tg.typesByName (newEssentialName (g t).name) = .error .notFound ∨ ∃ l, tg.typesByName (newEssentialName (g t).name) = .ok l) ∧
      Answers (compute first) (about t relos) cands (answersFor t relos fs)) := by
  obtain ⟨first, rest, G, res, rfl, hbo, hc, hG, hl, hs, rfl⟩ := (relocate_iff g compute order horder relos targets bo b b' hb fs).1 h
  have hcol := collectLoop_ok g relos 0 b b' [] G _ res hb hc
  obtain ⟨w1, w2, w3⟩ := writtenAll_spec hG (fun t => (solve g (compute first) (first :: rest) t (about t relos)).getD []) res hl (fun t ht => by
      obtain ⟨fs, hfs⟩ := Option.isSome_iff_exists.1 (hs t ht)
      obtain ⟨_, _, _, _, hlen⟩ := solve_answers hfs
      rw [hfs]; exact hlen)
  refine ⟨w1, hbo, hcol.pre, ?_, ?_⟩
  · intro i r hr hk
    have hlt := getElem?_lt hr
    obtain ⟨a1, a2, id, a3, a4⟩ := hcol.loc i r hr hk (by simp; omega)
    refine ⟨a1, a2, id, a3, ?_⟩
    rw [w3 i r hr hk]
    simpa using a4
  · intro t ht
    obtain ⟨fs, hfs⟩ := Option.isSome_iff_exists.1 (hs t ht)
    obtain ⟨hn, cs, hcs, hans, _⟩ := solve_answers hfs
    obtain ⟨c1, c2⟩ := candidates_ok _ _ _ hcs
    refine ⟨hn, first, cs, rfl, c2, c1, ?_⟩
    rw [w2 t ht, hfs]; exact hans

/-- **C95.** Go iterates the groups in any order; neither success nor the answers depend on it. -/
theorem relocate_deterministic (g : Graph R) (compute : Target R → Relo R → R → Except E Fixup) (order order' : List (R × ReloGroup R) → List (R × ReloGroup R))
    (horder : ∀ G, (order G).Perm G) (horder' : ∀ G, (order' G).Perm G) (relos : List (Relo R)) (targets : List (Target R)) (bo : ByteOrder)
    (b : TypeBuilder R) (hb : BInv g b) :
    (coreRelocate g compute order relos targets bo b).toOption = (coreRelocate g compute order' relos targets bo b).toOption := by
  have aux : ∀ o : List (R × ReloGroup R) → List (R × ReloGroup R), (∀ G, (o G).Perm G) → ∀ x, (coreRelocate g compute o relos targets bo b).toOption = some x ↔ 
      coreRelocate g compute o relos targets bo b = .ok x := by
    intro o _ x
    cases coreRelocate g compute o relos targets bo b <;> simp [Except.toOption]
  apply Option.ext
  rintro ⟨fs, b'⟩
  rw [aux order horder, aux order' horder', relocate_iff g compute order horder relos targets bo b b' hb fs,
    relocate_iff g compute order' horder' relos targets bo b b' hb fs]


theorem collectLoop_err (g : Graph R) : ∀ (relos : List (Relo R)) (i : Nat) (b : TypeBuilder R) (G : List (R × ReloGroup R)) (res : List Fixup) (e : RelocateErr E), BInv g b →
    collectLoop g i relos b G res = .error e →
    (e = .accessor ∧ ∃ r ∈ relos, r.kind = .typeIDLocal ∧ ¬ (r.accs = [] ∧ r.acc = 0)) ∨
    (e = .builder ∧ ∃ ts : List R, ts <+: (relos.filter (fun r => r.kind = .typeIDLocal)).map Relo.typ ∧ 2 ^ 32 ≤ (addAllTypes g b ts).2.types.length)
  | [], i, b, G, res, e, hb, h => by simp [collectLoop] at h
  | r :: relos, i, b, G, res, e, hb, h => by
    unfold collectLoop at h
    by_cases hk : r.kind = .typeIDLocal
    · rw [if_pos hk] at h
      rw [List.filter_cons_of_pos (by simpa using hk)]
      split at h
      · rename_i hc
        cases h
        refine .inl ⟨rfl, r, by simp, hk, ?_⟩
        rintro ⟨h1, h2⟩; rcases hc with h | h
        · exact h h1
        · exact h h2
      · cases hx : b.add g r.typ with
        | mk o b1 =>
          rw [hx] at h
          have hadd := add_spec g b b1 r.typ o hb hx
          cases o with
          | none =>
            cases h
            refine .inr ⟨rfl, [r.typ], ⟨_, rfl⟩, ?_⟩
            simp only [addAllTypes, hx]
            exact hadd.2.2.2.1 rfl
          | some id =>
            dsimp only at h
            rcases collectLoop_err g relos (i + 1) b1 G _ e hadd.1 h with ⟨h1, q, hq, h2⟩ | ⟨h1, ts, hp, h2⟩
            · exact .inl ⟨h1, q, by simp [hq], h2⟩
            · refine .inr ⟨h1, r.typ :: ts, ?_, ?_⟩
              · obtain ⟨s, hs⟩ := hp
                exact ⟨s, by simp [hs]⟩
              · simp only [addAllTypes, hx]; exact h2
    · rw [if_neg hk] at h
      rw [List.filter_cons_of_neg (by simpa using hk)]
      rcases collectLoop_err g relos (i + 1) b _ res e hb h with ⟨h1, q, hq, h2⟩ | h1
      · exact .inl ⟨h1, q, by simp [hq], h2⟩
      · exact .inr h1

omit [DecidableEq R] in
theorem candidates_err (name : Bytes) : ∀ (ts : List (Target R)) (e : LookupErr), candidates name ts = .error e → e ≠ .notFound ∧ ∃ t ∈ ts, t.typesByName name = .error e
  | [], e, h => by simp [candidates] at h
  | t :: ts, e, h => by
    unfold candidates at h
    cases ht : t.typesByName name with
    | error e' =>
      rw [ht] at h
      by_cases he : e' = .notFound
      · subst he
        obtain ⟨h1, t', h2, h3⟩ := candidates_err name ts e h
        exact ⟨h1, t', by simp [h2], h3⟩
      · have : e' = e := by cases e' <;> simp_all
        subst this
        exact ⟨he, t, by simp, ht⟩
    | ok l =>
      rw [ht] at h
      dsimp only at h
      cases hm : candidates name ts with
      | error e' =>
        rw [hm] at h; cases h
        obtain ⟨h1, t', h2, h3⟩ := candidates_err name ts _ hm
        exact ⟨h1, t', by simp [h2], h3⟩
      | ok more => rw [hm] at h; cases h

omit [DecidableEq R] in
theorem groupLoop_err (g : Graph R) (compute : Relo R → R → Except E Fixup) (targets : List (Target R)) : ∀ (G : List (R × ReloGroup R)) (res : List Fixup) (e : RelocateErr E),
    groupLoop g compute targets G res = .error e → ∃ p ∈ G, 
    (e = .unnamed ∧ (g p.1).name = []) ∨
    (∃ x, e = .lookup x ∧ candidates (newEssentialName (g p.1).name) targets = .error x) ∨
    (∃ x cs, e = .calc x ∧ candidates (newEssentialName (g p.1).name) targets = .ok cs ∧ calculateFixups Relo.kind compute p.2.relos cs = .error x)
  | [], res, e, h => by simp [groupLoop] at h
  | (t, gr) :: G, res, e, h => by
    unfold groupLoop at h
    split at h
    · rename_i hn; cases h
      exact ⟨(t, gr), by simp, .inl ⟨rfl, hn⟩⟩
    · split at h
      · rename_i x hx; cases h
        exact ⟨(t, gr), by simp, .inr (.inl ⟨x, rfl, hx⟩)⟩
      · rename_i cs hcs
        split at h
        · rename_i x hx; cases h
          exact ⟨(t, gr), by simp, .inr (.inr ⟨x, cs, rfl, hcs, hx⟩)⟩
        · obtain ⟨p, hp, h⟩ := groupLoop_err g compute targets G _ e h
          exact ⟨p, by simp [hp], h⟩

/-- **C95.** `CORERelocate` fails only for a reason: no target, a target of the wrong byte order, a malformed local relocation, exhausted type IDs, an anonymous type, a target
which can't be decoded, a relocation which can't be computed for a candidate, or two equally good candidates which disagree. -/
theorem relocate_failure (g : Graph R) (compute : Target R → Relo R → R → Except E Fixup) (order : List (R × ReloGroup R) → List (R × ReloGroup R))
    (horder : ∀ G, (order G).Perm G) (relos : List (Relo R)) (targets : List (Target R)) (bo : ByteOrder) (b : TypeBuilder R) (hb : BInv g b) (e : RelocateErr E)
    (h : coreRelocate g compute order relos targets bo b = .error e) :
    targets = [] ∨ (∃ t ∈ targets, t.bo ≠ bo) ∨ (∃ r ∈ relos, r.kind = .typeIDLocal ∧ ¬ (r.accs = [] ∧ r.acc = 0)) ∨
    (∃ ts : List R, ts <+: (relos.filter (fun r => r.kind = .typeIDLocal)).map Relo.typ ∧ 2 ^ 32 ≤ (addAllTypes g b ts).2.types.length) ∨
    ∃ r ∈ relos, r.kind ≠ .typeIDLocal ∧
      ((g r.typ).name = [] ∨
       (∃ t ∈ targets, ∃ x, x ≠ .notFound ∧ t.typesByName (newEssentialName (g r.typ).name) = .error x) ∨
       ∃ first, targets.head? = some first ∧ ∃ cands : List R,
        (∀ c ∈ cands, ∃ t ∈ targets, ∃ l, t.typesByName (newEssentialName (g r.typ).name) = .ok l ∧ c ∈ l) ∧
        ((∃ q ∈ about r.typ relos, ∃ c ∈ cands, ∃ x, compute first q c = .error x) ∨
         ∃ c ∈ cands, ∃ c' ∈ cands, ∃ ft ft', Fixes (compute first) (about r.typ relos) c ft ∧ Fixes (compute first) (about r.typ relos) c' ft' ∧
          badness ft = badness ft' ∧ badness ft < (about r.typ relos).length ∧ values ft ≠ values ft')) := by
  unfold coreRelocate at h
  cases targets with
  | nil => exact .inl rfl
  | cons first rest =>
    right
    dsimp only at h
    by_cases hbo : (first :: rest).any (fun t => bo ≠ t.bo) = true
    · obtain ⟨t, ht, hne⟩ := List.any_eq_true.1 hbo
      exact .inl ⟨t, ht, fun e => by simp [e] at hne⟩
    · right
      rw [if_neg hbo] at h
      cases hc : collectLoop (E := E) g 0 relos b [] (List.replicate relos.length zeroFixup) with
      | error e' =>
        rcases collectLoop_err g relos 0 b [] _ e' hb hc with ⟨_, h⟩ | ⟨_, h⟩
        · exact .inl h
        · exact .inr (.inl h)
      | ok x =>
        obtain ⟨G, res, b1⟩ := x
        rw [hc] at h
        right; right
        have hG := groups_perm (horder G) (groups_collected (collectLoop_ok g relos 0 b b1 [] G _ res hb hc))
        dsimp only at h
        cases hgl : groupLoop g (compute first) (first :: rest) (order G) res with
        | ok r => rw [hgl] at h; cases h
        | error e' =>
          obtain ⟨p, hp, hr⟩ := groupLoop_err _ _ _ _ _ _ hgl
          obtain ⟨m1, m2, m3⟩ := hG.mem p hp
          obtain ⟨r, hrm⟩ := List.exists_mem_of_ne_nil _ m3
          have hr' := hrm
          simp only [about, List.mem_filter, decide_eq_true_eq] at hr'
          obtain ⟨hr1, hr2, hr3⟩ := hr'
          refine ⟨r, hr1, hr2, ?_⟩
          rw [hr3]
          rcases hr with ⟨_, hn⟩ | ⟨x, _, hx⟩ | ⟨x, cs, _, hcs, hx⟩
          · exact .inl hn
          · obtain ⟨c1, t, c2, c3⟩ := candidates_err _ _ _ hx
            exact .inr (.inl ⟨t, c2, x, c1, c3⟩)
          · right; right
            refine ⟨first, rfl, cs, fun c hc => ((candidates_ok _ _ _ hcs).2 c).1 hc, ?_⟩
            rw [m1] at hx
            rcases failure_reason Relo.kind (compute first) _ _ _ hx with ⟨q, q1, c, c1, y, _, h3⟩ | ⟨_, h3⟩
            · exact .inl ⟨q, q1, c, c1, y, h3⟩
            · exact .inr h3

/-! ## `applyRelocations` -/

omit [DecidableEq R] in
theorem applyFixups_ok : ∀ (insns : List (RIns R)) (fs : List Fixup) (out : List (RIns R)), fs.length = (insns.filterMap RIns.relo).length → applyFixups insns fs = .ok out →
    out.length = insns.length ∧
    (∀ (k : Nat) i, insns[k]? = some i → i.relo = none → out[k]? = some i) ∧
    (∀ (k : Nat) i r, insns[k]? = some i → i.relo = some r → ∃ f j, fs[((insns.take k).filterMap RIns.relo).length]? = some f ∧ out[k]? = some j ∧
      FixedUp f i.ins j.ins ∧ (f.poison = false → j.relo = some r))
  | [], fs, out, hl, h => by
    simp [applyFixups] at h; subst h; simp
  | i :: is, fs, out, hl, h => by
    cases hr : i.relo with
    | none =>
      have hl' : fs.length = (is.filterMap RIns.relo).length := by rw [hl, List.filterMap_cons, hr]
      unfold applyFixups at h
      rw [hr] at h
      dsimp only at h
      cases ha : applyFixups is fs with
      | error e => rw [ha] at h; cases h
      | ok js =>
        rw [ha] at h; cases h
        obtain ⟨h1, h2, h3⟩ := applyFixups_ok is fs js hl' ha
        refine ⟨by simp [h1], ?_, ?_⟩
        · intro k q hq hn
          cases k with
          | zero => simpa using hq
          | succ k => simpa using h2 k q (by simpa using hq) hn
        · intro k q r hq hn
          cases k with
          | zero => simp at hq; subst hq; rw [hr] at hn; cases hn
          | succ k =>
            have := h3 k q r (by simpa using hq) hn
            simpa [hr] using this
    | some r =>
      cases fs with
      | nil => rw [List.filterMap_cons, hr] at hl; simp at hl
      | cons f fs =>
        have hl' : fs.length = (is.filterMap RIns.relo).length := by
          rw [List.filterMap_cons, hr] at hl; simpa using hl
        unfold applyFixups at h
        rw [hr] at h
        dsimp only at h
        cases hap : apply f i.ins with
        | error e => rw [hap] at h; cases h
        | ok j =>
          rw [hap] at h
          dsimp only at h
          cases ha : applyFixups is fs with
          | error e => rw [ha] at h; cases h
          | ok js =>
            rw [ha] at h; cases h
            obtain ⟨h1, h2, h3⟩ := applyFixups_ok is fs js hl' ha
            refine ⟨by simp [h1], ?_, ?_⟩
            · intro k q hq hn
              cases k with
              | zero => simp at hq; subst hq; rw [hr] at hn; cases hn
              | succ k => simpa using h2 k q (by simpa using hq) hn
            · intro k q r' hq hn
              cases k with
              | zero =>
                simp at hq; subst hq
                rw [hr] at hn; cases hn
                refine ⟨f, ⟨j, if f.poison then none else some r⟩, by simp, by simp, ?_, by intro e; simp [e]⟩
                cases hp : f.poison with
                | true =>
                  obtain ⟨j', h1, h2, h3⟩ := apply_poison f i.ins hp
                  rw [hap] at h1; cases h1
                  exact .inl ⟨hp, h2, h3⟩
                | false =>
                  obtain ⟨o, h1, h2, h3, _⟩ := (apply_exact f i.ins j hp).1 hap
                  exact .inr ⟨hp, o, h1, h2, h3⟩
              | succ k =>
                have := h3 k q r' (by simpa using hq) hn
                simpa [hr] using this

omit [DecidableEq R] in
theorem loadModules_ok (c : KernelTypes R E) : ∀ (ms : List String) (ts : List (Target R)), loadModules c ms = .ok ts → ms.map c.module_ = ts.map .ok
  | [], ts, h => by simp [loadModules] at h; subst h; rfl
  | m :: ms, ts, h => by
    unfold loadModules at h
    cases hm : c.module_ m with
    | error e => rw [hm] at h; cases h
    | ok t =>
      rw [hm] at h
      dsimp only at h
      cases hl : loadModules c ms with
      | error e => rw [hl] at h; cases h
      | ok ts' =>
        rw [hl] at h; cases h
        rw [List.map_cons, List.map_cons, hm, loadModules_ok c ms ts' hl]

omit [DecidableEq R] in
theorem targetsOf_ok (c : KernelTypes R E) (o : Option (Target R)) (extra targets : List (Target R)) (h : targetsOf c o extra = .ok targets) : AgainstAll c o extra targets := by
  unfold targetsOf at h
  cases o with
  | some o => cases h; exact .inl ⟨o, rfl, rfl⟩
  | none =>
    dsimp only at h
    cases hk : c.kernel with
    | error e => rw [hk] at h; cases h
    | ok k =>
      rw [hk] at h
      dsimp only at h
      cases hm : c.modules with
      | error e => rw [hm] at h; cases h
      | ok ms =>
        rw [hm] at h
        dsimp only at h
        cases hl : loadModules c (ms.getD []) with
        | error e => rw [hl] at h; cases h
        | ok ts =>
          rw [hl] at h; cases h
          refine .inr ⟨rfl, k, ms.getD [], ts, hk, ?_, loadModules_ok c _ _ hl, rfl⟩
          rw [hm]
          cases ms with
          | none => exact .inr ⟨rfl, rfl⟩
          | some ms => exact .inl rfl

/-- **C95.** Relocating a program: instructions without a relocation stay as they are, the others are fixed up, each with its own answer; the answers are correct (`relocate_correct`)
against the kernel, its modules and the extra targets. -/
theorem program_relocated (g : Graph R) (compute : Target R → Relo R → R → Except E Fixup) (order : List (R × ReloGroup R) → List (R × ReloGroup R))
    (horder : ∀ G, (order G).Perm G) (native : ByteOrder) (insns out : List (RIns R)) (bo : Option ByteOrder) (b b' : TypeBuilder R) (hb : BInv g b)
    (c : KernelTypes R E) (kernelOverride : Option (Target R)) (extra : List (Target R))
    (h : applyRelocations g compute order native insns bo b c kernelOverride extra = .ok (out, b')) :
    out.length = insns.length ∧ b.types <+: b'.types ∧ (∀ (k : Nat) i, insns[k]? = some i → i.relo = none → out[k]? = some i) ∧
    ((∃ i ∈ insns, i.relo ≠ none) → ∃ targets fs, AgainstAll c kernelOverride extra targets ∧ fs.length = (insns.filterMap RIns.relo).length ∧
      (∀ (k : Nat) i r, insns[k]? = some i → i.relo = some r → ∃ f j, fs[((insns.take k).filterMap RIns.relo).length]? = some f ∧ out[k]? = some j ∧
        FixedUp f i.ins j.ins ∧ (f.poison = false → j.relo = some r)) ∧
      (∀ t ∈ targets, t.bo = bo.getD native) ∧
      (∀ (n : Nat) r, (insns.filterMap RIns.relo)[n]? = some r → r.kind = .typeIDLocal →
        r.accs = [] ∧ r.acc = 0 ∧ ∃ id, HasID g b' r.typ id ∧ fs[n]? = some ⟨.typeIDLocal, r.id.setWidth 64, id.setWidth 64, false, false⟩) ∧
      (∀ t, about t (insns.filterMap RIns.relo) ≠ [] → (g t).name ≠ [] ∧ ∃ first cands, targets.head? = some first ∧
        (∀ c, c ∈ cands ↔ ∃ tg ∈ targets, ∃ l, tg.typesByName (newEssentialName (g t).name) = .ok l ∧ c ∈ l) ∧
        (∀ tg ∈ targets, tg.typesByName (newEssentialName (g t).name) = .error .notFound ∨ ∃ l, tg.typesByName (newEssentialName (g t).name) = .ok l) ∧
        Answers (compute first) (about t (insns.filterMap RIns.relo)) cands (answersFor t (insns.filterMap RIns.relo) fs))) := by
  unfold applyRelocations at h
  dsimp only at h
  by_cases h0 : (insns.filterMap RIns.relo).length = 0
  · rw [if_pos h0] at h
    cases h
    refine ⟨rfl, List.prefix_refl _, fun k i hk _ => hk, ?_⟩
    rintro ⟨i, hi, hr⟩
    obtain ⟨r, hr⟩ := Option.ne_none_iff_exists'.1 hr
    have : r ∈ insns.filterMap RIns.relo := List.mem_filterMap.2 ⟨i, hi, hr⟩
    rw [List.length_eq_zero_iff.1 h0] at this
    simp at this
  · rw [if_neg h0] at h
    cases ht : targetsOf c kernelOverride extra with
    | error e => rw [ht] at h; cases h
    | ok targets =>
      rw [ht] at h
      dsimp only at h
      cases hc : coreRelocate g compute order (insns.filterMap RIns.relo) targets (bo.getD native) b with
      | error e => rw [hc] at h; cases h
      | ok x =>
        obtain ⟨fs, b1⟩ := x
        rw [hc] at h
        dsimp only at h
        cases ha : applyFixups insns fs with
        | error e => rw [ha] at h; cases h
        | ok js =>
          rw [ha] at h; cases h
          obtain ⟨r1, r2, r3, r4, r5⟩ := relocate_correct g compute order horder _ targets _ b b' hb fs hc
          obtain ⟨a1, a2, a3⟩ := applyFixups_ok insns fs out r1 ha
          exact ⟨a1, r3, a2, fun _ => ⟨targets, fs, targetsOf_ok c _ _ _ ht, r1, a3, r2, r4, r5⟩⟩

/-- **C95.** A program without relocations needs no kernel types at all. -/
theorem no_relocations (g : Graph R) (compute : Target R → Relo R → R → Except E Fixup) (order : List (R × ReloGroup R) → List (R × ReloGroup R))
    (native : ByteOrder) (insns : List (RIns R)) (bo : Option ByteOrder) (b : TypeBuilder R) (c : KernelTypes R E) (kernelOverride : Option (Target R)) (extra : List (Target R))
    (h : ∀ i ∈ insns, i.relo = none) : applyRelocations g compute order native insns bo b c kernelOverride extra = .ok (insns, b) := by
  unfold applyRelocations
  dsimp only
  rw [if_pos]
  rw [List.length_eq_zero_iff, List.filterMap_eq_nil_iff]
  exact h
end

/-! ## Example -/

namespace RelocateEx

/-- Local types 1 (`task___x`) and 2 (`other`); the kernel has 10, a module has 11, both called `task`. -/
def g : Graph Nat
  | 1 => .int (lit "task___x") 4 0
  | 2 => .int (lit "other") 4 0
  | 10 => .int (lit "task") 8 0
  | 11 => .int (lit "task") 8 0
  | _ => .void

/-- The kernel. -/
def kernel : Target Nat := ⟨.little, fun n => if n = lit "task" then .ok [10] else .error .notFound⟩
/-- A module. -/
def kmod : Target Nat := ⟨.little, fun n => if n = lit "task" then .ok [11] else .error .notFound⟩

/-- The kernel with this module. -/
def types : KernelTypes Nat String := ⟨.ok kernel, .ok (some ["m"]), fun m => if m = "m" then .ok kmod else .error "no such module"⟩

/-- The size of the type: 4 locally, 8 in the kernel; 16 in the module if `disagree`. -/
def size (disagree : Bool) (_ : Target Nat) (r : Relo Nat) (c : Nat) : Except String Fixup :=
  .ok ⟨r.kind, 4, if disagree && c == 11 then 16 else 8, false, false⟩

/-- `r1 = 4` (size of task), `r2 = 7` (local ID of other), `exit`. -/
def prog : List (RIns Nat) :=
  [⟨⟨⟨⟨0xb7, 1, 0, 0, 4⟩, "main", "", none⟩, none, none⟩, some ⟨1, 0, [], .typeSize, 5⟩⟩,
   ⟨⟨⟨⟨0xb7, 2, 0, 0, 7⟩, "", "", none⟩, none, none⟩, some ⟨2, 0, [], .typeIDLocal, 7⟩⟩,
   ⟨⟨⟨⟨0x95, 0, 0, 0, 0⟩, "", "", none⟩, none, none⟩, none⟩]

/-- The immediates after relocation, and the types in the builder. -/
def run (disagree : Bool) (order : List (Nat × ReloGroup Nat) → List (Nat × ReloGroup Nat)) : Option (List Nat × List Nat) :=
  (applyRelocations g (size disagree) order .little prog none TypeBuilder.empty types none []).toOption.map fun x =>
    (x.1.map (fun i => i.ins.p.ins.cons.toNat), x.2.types)

/-- The size is 8 in the kernel and in the module; the first type in the builder has ID 1. -/
example : run false id = some ([8, 1, 0], [2]) := by decide +kernel
/-- The kernel and the module disagree. -/
example : run true id = none := by decide +kernel
/-- The hypotheses of `program_relocated` hold here. -/
example : (∀ G : List (Nat × ReloGroup Nat), (id G).Perm G) ∧ (∀ G : List (Nat × ReloGroup Nat), (List.reverse G).Perm G) ∧
    BInv g (TypeBuilder.empty : TypeBuilder Nat) ∧ run false List.reverse = some ([8, 1, 0], [2]) :=
  ⟨fun G => List.Perm.refl G, fun G => List.reverse_perm G, binv_empty g, by decide +kernel⟩

end RelocateEx

end Ebpf.Btf
