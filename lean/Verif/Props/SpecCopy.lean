import Verif.Spec.SpecCopy
/-!
# C117: copies of specifications
-/
namespace Ebpf.SpecCopy
open Ebpf.SpecCopy.Spec

/-! ## New addresses -/

/-- Different addresses from `n` up to `n'`. -/
def Alloc (xs : List Nat) (n n' : Nat) : Prop := n ≤ n' ∧ xs.Nodup ∧ ∀ a ∈ xs, n ≤ a ∧ a < n'

theorem alloc_nil (n : Nat) : Alloc [] n n := ⟨Nat.le_refl _, List.nodup_nil, by simp⟩

theorem alloc_one (n : Nat) : Alloc [n] n (n + 1) := ⟨by omega, by simp, by simp⟩

theorem alloc_append {xs ys : List Nat} {n n1 n2 : Nat} (h : Alloc xs n n1) (h' : Alloc ys n1 n2) : Alloc (xs ++ ys) n n2 := by
  obtain ⟨a1, a2, a3⟩ := h
  obtain ⟨b1, b2, b3⟩ := h'
  refine ⟨by omega, List.nodup_append.mpr ⟨a2, b2, fun x hx y hy e => ?_⟩, fun x hx => ?_⟩
  · have := a3 x hx; have := b3 y hy; omega
  · rcases List.mem_append.mp hx with hx | hx
    · have := a3 x hx; omega
    · have := b3 x hx; omega

theorem alloc_cons {xs : List Nat} {n n' : Nat} (h : Alloc xs (n + 1) n') : Alloc (n :: xs) n n' := alloc_append (alloc_one n) h

theorem alloc_perm {xs ys : List Nat} {n n' : Nat} (h : Alloc xs n n') (p : xs.Perm ys) : Alloc ys n n' :=
  ⟨h.1, p.nodup_iff.mp h.2.1, fun a ha => h.2.2 a (p.mem_iff.mpr ha)⟩

theorem cloneRef_alloc {α : Type} (r : Option (Ref α)) (n : Nat) : Alloc (at? (cloneRef r n).1) n (cloneRef r n).2 := by
  cases r with
  | none => exact alloc_nil n
  | some r => exact alloc_one n

theorem cloneRef_same {α : Type} (r : Option (Ref α)) (n : Nat) : SameRef r (cloneRef r n).1 := by
  cases r <;> rfl

/-- What a part of the copy has to fulfil. -/
theorem copyMap_spec (l : List MapSpec) (h : Linked l) : ∀ n,
    Alloc (ownMap (copyMap l n).1) n (copyMap l n).2 ∧ SameMap l (copyMap l n).1 ∧ Linked (copyMap l n).1 ∧
    ((copyMap l n).1.flatMap fun m => m.contents.toList.flatMap fun c => c.val.map (·.value.addr)) =
      (l.flatMap fun m => m.contents.toList.flatMap fun c => c.val.map (·.value.addr)) ∧
    (∀ m, (copyMap l n).1.head? = some m → m.addr = n) := by
  induction l with
  | nil => exact fun n => ⟨alloc_nil n, .null, .null, rfl, by simp [copyMap]⟩
  | cons m ms ih =>
    intro n
    have hc := cloneRef_alloc m.contents (n + 1)
    have hcs := cloneRef_same m.contents (n + 1)
    have hv : ((cloneRef m.contents (n + 1)).1.toList.flatMap fun c => c.val.map (·.value.addr)) = (m.contents.toList.flatMap fun c => c.val.map (·.value.addr)) := by
      cases m.contents <;> rfl
    unfold copyMap
    generalize cloneRef m.contents (n + 1) = c at *
    obtain ⟨c, n1⟩ := c
    have hk := cloneRef_alloc m.key n1
    have hks := cloneRef_same m.key n1
    dsimp only at *
    generalize cloneRef m.key n1 = k at *
    obtain ⟨k, n2⟩ := k
    have hw := cloneRef_alloc m.value n2
    have hws := cloneRef_same m.value n2
    dsimp only at *
    generalize cloneRef m.value n2 = w at *
    obtain ⟨w, n3⟩ := w
    have ht := cloneRef_alloc m.tags n3
    have hts := cloneRef_same m.tags n3
    dsimp only at *
    generalize cloneRef m.tags n3 = t at *
    obtain ⟨t, n4⟩ := t
    have hall := alloc_append (alloc_append (alloc_append hc hk) hw) ht
    dsimp only at *
    by_cases hself : m.inner = some m.addr
    · rw [if_pos hself]
      have he := cloneRef_alloc m.extra n4
      have hes := cloneRef_same m.extra n4
      generalize cloneRef m.extra n4 = x at *
      obtain ⟨x, n5⟩ := x
      dsimp only at *
      have hms : ms = [] := by
        cases h with
        | last => rfl
        | next _ m' l h1 h2 h3 => exact absurd hself h2
      subst hms
      refine ⟨?_, .cons _ _ _ _ rfl hcs hks hws hts hes (by simp [hself]) (by simp [hself]) .null, .last _ (.inr rfl), ?_, ?_⟩
      · simp only [ownMap, List.flatMap_cons, List.flatMap_nil, List.append_nil]
        exact alloc_cons (alloc_append hall he)
      · simp only [List.flatMap_cons, List.flatMap_nil, List.append_nil]
        exact hv
      · intro q hq; cases hq; rfl
    · rw [if_neg hself]
      have hl : Linked ms := by
        cases h with
        | last => exact .null
        | next _ m' l h1 h2 h3 => exact h3
      obtain ⟨r1, r2, r3, r4, r5⟩ := ih hl n4
      generalize copyMap ms n4 = rest at *
      obtain ⟨rest, n5⟩ := rest
      have he := cloneRef_alloc m.extra n5
      have hes := cloneRef_same m.extra n5
      dsimp only at *
      generalize cloneRef m.extra n5 = x at *
      obtain ⟨x, n6⟩ := x
      dsimp only at *
      have hn : n < n4 := by have := hall.1; omega
      have hin : m.inner = none ↔ ms = [] := by
        cases h with
        | last _ h =>
          rcases h with h | h
          · simp [h]
          · exact absurd h hself
        | next _ m' l h1 h2 h3 => simp [h1]
      have hemp : rest = [] ↔ ms = [] := by cases r2 <;> simp
      have hne : rest.head?.map (·.addr) ≠ some n := by
        cases hr : rest with
        | nil => simp
        | cons q qs =>
          have := r5 q (by rw [hr]; rfl)
          simp only [List.head?_cons, Option.map_some, ne_eq, Option.some.injEq]
          omega
      refine ⟨?_, .cons _ _ _ _ rfl hcs hks hws hts hes ?_ ?_ r2, ?_, ?_, ?_⟩
      · refine alloc_perm (alloc_cons (alloc_append (alloc_append hall r1) he)) ?_
        simp only [ownMap, List.flatMap_cons]
        rw [List.perm_iff_count]
        intro y
        simp only [List.count_append, List.count_cons]
        omega
      · exact ⟨fun h => absurd h hself, fun h => absurd h hne⟩
      · rw [hin, ← hemp]
        cases rest <;> simp
      · cases hr : rest with
        | nil => exact .last _ (.inl rfl)
        | cons q qs =>
          rw [hr] at r3 hne
          exact .next _ _ _ rfl hne r3
      · rw [List.flatMap_cons, List.flatMap_cons, r4]
        show _ ++ _ = _ ++ _
        rw [hv]
      · intro q hq; cases hq; rfl

theorem copyProg_spec (p : Option ProgSpec) (n : Nat) : Alloc (ownProg (copyProg p n).1) n (copyProg p n).2 ∧ SameProg p (copyProg p n).1 ∧
    ((copyProg p n).1.toList.flatMap fun p => at? p.target ++ p.insns.toList.flatMap fun i => i.val.flatMap fun i => at? i.md) =
    (p.toList.flatMap fun p => at? p.target ++ p.insns.toList.flatMap fun i => i.val.flatMap fun i => at? i.md) := by
  cases p with
  | none => exact ⟨alloc_nil n, .inl ⟨rfl, rfl⟩, rfl⟩
  | some p =>
    refine ⟨?_, .inr ⟨p, _, rfl, rfl, rfl, rfl, _, rfl, rfl⟩, ?_⟩
    · exact alloc_cons (alloc_one (n + 1))
    · cases h : p.insns <;> simp [copyProg, h]

theorem copyVar_spec (v : VarSpec) (n : Nat) : Alloc (ownVar (copyVar v n).1) n (copyVar v n).2 ∧ SameVar v (copyVar v n).1 := by
  unfold copyVar
  have h1 := cloneRef_alloc v.value (n + 1)
  have h2 := cloneRef_same v.value (n + 1)
  generalize cloneRef v.value (n + 1) = a at *
  obtain ⟨a, n1⟩ := a
  have h3 := cloneRef_alloc v.typ n1
  have h4 := cloneRef_same v.typ n1
  dsimp only at *
  generalize cloneRef v.typ n1 = b at *
  obtain ⟨b, n2⟩ := b
  exact ⟨alloc_cons (alloc_append h1 h3), rfl, h2, h4⟩

theorem copyEntries_spec {α β : Type} {f : α → Nat → α × Nat} {R : α → α → Prop} {own : α → List Nat} {share : α → List β} :
    ∀ (l : List (Bytes × α)) (n : Nat), (∀ x ∈ l, ∀ n, Alloc (own (f x.2 n).1) n (f x.2 n).2 ∧ R x.2 (f x.2 n).1 ∧ share (f x.2 n).1 = share x.2) →
    Alloc ((copyEntries f l n).1.flatMap fun x => own x.2) n (copyEntries f l n).2 ∧ SameEntries R l (copyEntries f l n).1 ∧
    ((copyEntries f l n).1.flatMap fun x => share x.2) = l.flatMap fun x => share x.2
  | [], n, _ => ⟨alloc_nil n, .nil, rfl⟩
  | (k, v) :: l, n, h => by
    obtain ⟨a1, a2, a3⟩ := h (k, v) (by simp) n
    have ih := copyEntries_spec (f := f) (R := R) (own := own) (share := share) l (f v n).2 (fun x hx => h x (List.mem_cons_of_mem _ hx))
    obtain ⟨b1, b2, b3⟩ := ih
    unfold copyEntries
    dsimp only at *
    refine ⟨alloc_append a1 b1, .cons _ _ _ _ _ a2 b2, ?_⟩
    rw [List.flatMap_cons, List.flatMap_cons, b3, a3]

theorem copyMapOfSpecs_spec {α β : Type} {f : α → Nat → α × Nat} {R : α → α → Prop} {own : α → List Nat} {share : α → List β}
    (m : Option (Ref (List (Bytes × α)))) (n : Nat)
    (h : ∀ r, m = some r → ∀ x ∈ r.val, ∀ n, Alloc (own (f x.2 n).1) n (f x.2 n).2 ∧ R x.2 (f x.2 n).1 ∧ share (f x.2 n).1 = share x.2) :
    Alloc (ownAll own (copyMapOfSpecs f m n).1) n (copyMapOfSpecs f m n).2 ∧ SameAll R m (copyMapOfSpecs f m n).1 ∧
    ((copyMapOfSpecs f m n).1.toList.flatMap fun r => r.val.flatMap fun x => share x.2) = m.toList.flatMap fun r => r.val.flatMap fun x => share x.2 := by
  cases m with
  | none => exact ⟨alloc_nil n, .inl ⟨rfl, rfl⟩, rfl⟩
  | some r =>
    obtain ⟨b1, b2, b3⟩ := copyEntries_spec (f := f) (R := R) (own := own) (share := share) r.val (n + 1) (h r rfl)
    unfold copyMapOfSpecs
    dsimp only
    refine ⟨?_, .inr ⟨r, _, rfl, rfl, b2⟩, ?_⟩
    · have := alloc_cons b1
      simpa [ownAll] using this
    · simpa using b3

/-- Everything about the copy. -/
theorem copy_spec (cs : CollSpec) (n : Nat) (h : AllLinked cs) :
    Alloc (own (copy cs n).1) n (copy cs n).2 ∧ Same cs (copy cs n).1 ∧ values (copy cs n).1 = values cs ∧ targets (copy cs n).1 = targets cs := by
  have hm := fun n => copyMapOfSpecs_spec (f := copyMap) (R := SameMap) (own := ownMap)
    (share := fun l => l.flatMap fun m => m.contents.toList.flatMap fun c => c.val.map (·.value.addr)) cs.maps n
    (fun r hr x hx n => by
      obtain ⟨a, b, _, d, _⟩ := copyMap_spec x.2 (h r hr x hx) n
      exact ⟨a, b, d⟩)
  have hp := fun n => copyMapOfSpecs_spec (f := copyProg) (R := SameProg) (own := ownProg)
    (share := fun p => p.toList.flatMap fun p => at? p.target ++ p.insns.toList.flatMap fun i => i.val.flatMap fun i => at? i.md) cs.progs n
    (fun r hr x hx n => copyProg_spec x.2 n)
  have hv := fun n => copyMapOfSpecs_spec (β := Nat) (f := copyVar) (R := SameVar) (own := ownVar) (share := fun _ => []) cs.vars n
    (fun r hr x hx n => ⟨(copyVar_spec x.2 n).1, (copyVar_spec x.2 n).2, rfl⟩)
  unfold copy
  have hm := hm (n + 1)
  generalize copyMapOfSpecs copyMap cs.maps (n + 1) = a at *
  obtain ⟨a, n1⟩ := a
  dsimp only at *
  have hp := hp n1
  generalize copyMapOfSpecs copyProg cs.progs n1 = b at *
  obtain ⟨b, n2⟩ := b
  dsimp only at *
  have hv := hv n2
  generalize copyMapOfSpecs copyVar cs.vars n2 = c at *
  obtain ⟨c, n3⟩ := c
  dsimp only at *
  have ht := cloneRef_alloc cs.types n3
  have hts := cloneRef_same cs.types n3
  generalize cloneRef cs.types n3 = d at *
  obtain ⟨d, n4⟩ := d
  dsimp only at *
  exact ⟨alloc_cons (alloc_append (alloc_append (alloc_append hm.1 hp.1) hv.1) ht), ⟨hm.2.1, hp.2.1, hv.2.1, hts, rfl⟩, hm.2.2, hp.2.2⟩

/-! ## Writing elsewhere -/

theorem wref_id {α : Type} {a : Nat} {f deep : α → α} {r : Option (Ref α)} (h : a ∉ at? r) (hd : ∀ x, r = some x → deep x.val = x.val) : wref a f deep r = r := by
  cases r with
  | none => rfl
  | some x =>
    have : x.addr ≠ a := fun e => h (by simp [at?, e])
    simp only [wref, Option.map_some, if_neg this, hd x rfl]

theorem map_id {α : Type} {f : α → α} {l : List α} (h : ∀ x ∈ l, f x = x) : l.map f = l := by
  induction l with
  | nil => rfl
  | cons x l ih => rw [List.map_cons, h x (by simp), ih (fun y hy => h y (List.mem_cons_of_mem _ hy))]

theorem wmap_id {a : Nat} {e : Edit} {m : MapSpec} (h1 : a ∉ m.addr :: (at? m.contents ++ at? m.key ++ at? m.value ++ at? m.tags ++ at? m.extra))
    (h2 : a ∉ m.contents.toList.flatMap fun c => c.val.map (·.value.addr)) : wmap a e m = m := by
  simp only [List.mem_cons, List.mem_append, not_or] at h1
  unfold wmap
  have hc : ∀ x, m.contents = some x → List.map (wkv a e) x.val = x.val := by
    intro x hx
    refine map_id fun kv hkv => ?_
    have : kv.value.addr ≠ a := by
      intro he
      apply h2
      rw [hx]
      simp only [Option.toList, List.flatMap_cons, List.flatMap_nil, List.append_nil, List.mem_map]
      exact ⟨kv, hkv, he⟩
    unfold wkv
    rw [if_neg this]
  rw [wref_id h1.2.1.1.1.1 hc, wref_id h1.2.1.1.1.2 (fun _ _ => rfl), wref_id h1.2.1.1.2 (fun _ _ => rfl), wref_id h1.2.1.2 (fun _ _ => rfl), wref_id h1.2.2 (fun _ _ => rfl)]
  exact if_neg (fun e => h1.1 e.symm)

theorem wprog_id {a : Nat} {e : Edit} {p : ProgSpec} (h1 : a ∉ p.addr :: at? p.insns)
    (h2 : a ∉ at? p.target ++ p.insns.toList.flatMap fun i => i.val.flatMap fun i => at? i.md) : wprog a e p = p := by
  simp only [List.mem_cons, List.mem_append, not_or] at h1 h2
  unfold wprog
  have hc : ∀ x, p.insns = some x → List.map (wins a e) x.val = x.val := by
    intro x hx
    refine map_id fun i hi => ?_
    unfold wins
    rw [wref_id (fun he => h2.2 ?_) (fun _ _ => rfl)]
    rw [hx]
    simp only [Option.toList, List.flatMap_cons, List.flatMap_nil, List.append_nil, List.mem_flatMap]
    exact ⟨i, hi, he⟩
  rw [wref_id h2.1 (fun _ _ => rfl), wref_id h1.2 hc]
  exact if_neg (fun e => h1.1 e.symm)

theorem wvar_id {a : Nat} {e : Edit} {v : VarSpec} (h : a ∉ ownVar v) : wvar a e v = v := by
  simp only [ownVar, List.mem_cons, List.mem_append, not_or] at h
  unfold wvar
  rw [wref_id h.2.1 (fun _ _ => rfl), wref_id h.2.2 (fun _ _ => rfl)]
  exact if_neg (fun e => h.1 e.symm)

/-- Writing to what can't be reached changes nothing. -/
theorem write_id {a : Nat} {e : Edit} {cs : CollSpec} (h : a ∉ reach cs) : write a e cs = cs := by
  simp only [reach, own, List.mem_cons, List.mem_append, not_or] at h
  obtain ⟨⟨⟨h0, ⟨⟨hm, hp⟩, hv⟩, ht⟩, hval⟩, htar⟩ := h
  unfold write
  have split : ∀ {α : Type} {f : α → List Nat} {m : Option (Ref (List (Bytes × α)))}, a ∉ ownAll f m → a ∉ at? m ∧ ∀ r, m = some r → ∀ x ∈ r.val, a ∉ f x.2 := by
    intro α f m h
    cases m with
    | none => exact ⟨by simp [at?], by simp⟩
    | some r =>
      simp only [ownAll, Option.toList, List.flatMap_cons, List.flatMap_nil, List.append_nil, List.mem_cons, List.mem_flatMap, not_or, not_exists, not_and] at h
      exact ⟨by simpa [at?] using h.1, fun s hs x hx => by cases hs; exact h.2 x hx⟩
  obtain ⟨m1, m2⟩ := split hm
  obtain ⟨p1, p2⟩ := split hp
  obtain ⟨v1, v2⟩ := split hv
  have em : ∀ r, cs.maps = some r → List.map (fun x : Bytes × List MapSpec => (x.1, x.2.map (wmap a e))) r.val = r.val := by
    intro r hr
    refine map_id fun x hx => ?_
    rw [map_id fun m hmm => wmap_id (fun hc => m2 r hr x hx (List.mem_flatMap.mpr ⟨m, hmm, hc⟩)) (fun hc => hval ?_)]
    unfold values
    rw [hr]
    simp only [Option.toList, List.flatMap_cons, List.flatMap_nil, List.append_nil, List.mem_flatMap] at hc ⊢
    exact ⟨x, hx, m, hmm, by simpa using hc⟩
  have ep : ∀ r, cs.progs = some r → List.map (fun x : Bytes × Option ProgSpec => (x.1, x.2.map (wprog a e))) r.val = r.val := by
    intro r hr
    refine map_id fun x hx => ?_
    obtain ⟨k, p⟩ := x
    cases p with
    | none => rfl
    | some p =>
      have h1 := p2 r hr _ hx
      simp only [Option.map_some]
      rw [wprog_id (fun hc => h1 (by simpa [ownProg] using hc)) (fun hc => htar ?_)]
      unfold targets
      rw [hr]
      simp only [Option.toList_some, List.flatMap_cons, List.flatMap_nil, List.append_nil, List.mem_flatMap]
      exact ⟨_, hx, by simpa using hc⟩
  have ev : ∀ r, cs.vars = some r → List.map (fun x : Bytes × VarSpec => (x.1, wvar a e x.2)) r.val = r.val := by
    intro r hr
    refine map_id fun x hx => ?_
    rw [wvar_id (v2 r hr x hx)]
  rw [wref_id m1 em, wref_id p1 ep, wref_id v1 ev, wref_id ht (fun _ _ => rfl)]
  exact if_neg (fun e => h0 e.symm)

theorem writes_id {l : List (Nat × Edit)} {cs : CollSpec} (h : ∀ x ∈ l, x.1 ∉ reach cs) : writes l cs = cs := by
  induction l generalizing cs with
  | nil => rfl
  | cons x l ih =>
    have e : write x.1 x.2 cs = cs := write_id (h x (by simp))
    show writes l (write x.1 x.2 cs) = cs
    rw [e]
    exact ih fun y hy => h y (List.mem_cons_of_mem _ hy)

/-! ## The properties -/

/-- **C117.** The copy of a specification is the same but for addresses (and but for programs without instructions). -/
theorem copy_same (cs : CollSpec) (n : Nat) (h : AllLinked cs) : Same cs (copy cs n).1 := (copy_spec cs n h).2.1

/-- **C117.** All objects of the copy are new, and no two of them are the same object, whatever was shared in the original; only the values in the contents of maps, the targets
of programs and the metadata of instructions are those of the original. -/
theorem copy_new (cs : CollSpec) (n : Nat) (h : AllLinked cs) :
    (own (copy cs n).1).Nodup ∧ (∀ a ∈ own (copy cs n).1, n ≤ a) ∧ values (copy cs n).1 = values cs ∧ targets (copy cs n).1 = targets cs :=
  ⟨(copy_spec cs n h).1.2.1, fun a ha => ((copy_spec cs n h).1.2.2 a ha).1, (copy_spec cs n h).2.2⟩

/-- **C117.** Whatever is written to the objects of the copy, or to objects made later, the original doesn't change. -/
theorem copy_protects (cs : CollSpec) (n : Nat) (h : AllLinked cs) (hn : ∀ a ∈ reach cs, a < n) (l : List (Nat × Edit)) (hl : ∀ x ∈ l, x.1 ∈ own (copy cs n).1 ∨ n ≤ x.1) :
    writes l cs = cs := by
  refine writes_id fun x hx hr => ?_
  have := hn _ hr
  rcases hl x hx with hl | hl
  · have := (copy_new cs n h).2.1 _ hl
    omega
  · omega

/-- **C117.** Whatever is written to the objects of the original, or to other objects made before, except to the values in the contents of maps, to the targets and to metadata, the
copy doesn't change. -/
theorem copy_protected (cs : CollSpec) (n : Nat) (h : AllLinked cs) (l : List (Nat × Edit)) (hl : ∀ x ∈ l, x.1 < n ∧ x.1 ∉ values cs ∧ x.1 ∉ targets cs) :
    writes l (copy cs n).1 = (copy cs n).1 := by
  refine writes_id fun x hx hr => ?_
  obtain ⟨h1, h2, h3⟩ := hl x hx
  obtain ⟨_, c2, c3, c4⟩ := copy_new cs n h
  rw [reach, c3, c4] at hr
  simp only [List.mem_append] at hr
  rcases hr with (hr | hr) | hr
  · have := c2 _ hr; omega
  · exact h2 hr
  · exact h3 hr

/-- **C117.** Inner maps of the copy are inner maps of the copy: a map which is its own inner map is copied to one which is its own. -/
theorem copyMap_linked (l : List MapSpec) (h : Linked l) (n : Nat) : Linked (copyMap l n).1 ∧ SameMap l (copyMap l n).1 := ⟨(copyMap_spec l h n).2.2.1, (copyMap_spec l h n).2.1⟩

/-- **C117.** Copying a copy gives the same again. -/
theorem copy_linked (cs : CollSpec) (n : Nat) (h : AllLinked cs) : AllLinked (copy cs n).1 := by
  intro r hr x hx
  have key : ∀ (l : List (Bytes × List MapSpec)) (n : Nat), (∀ x ∈ l, Linked x.2) → ∀ x ∈ (copyEntries copyMap l n).1, Linked x.2 := by
    intro l
    induction l with
    | nil => intro n _ x hx; cases hx
    | cons y l ih =>
      intro n hl x hx
      obtain ⟨k, v⟩ := y
      unfold copyEntries at hx
      rcases List.mem_cons.mp hx with rfl | hx
      · exact (copyMap_linked v (hl (k, v) (by simp)) n).1
      · exact ih _ (fun z hz => hl z (List.mem_cons_of_mem _ hz)) x hx
  have e : (copy cs n).1.maps = (copyMapOfSpecs copyMap cs.maps (n + 1)).1 := rfl
  rw [e] at hr
  cases hm : cs.maps with
  | none => rw [hm] at hr; cases hr
  | some s =>
    rw [hm] at hr
    cases hr
    exact key s.val _ (h s hm) x hx

/-! ## The hypotheses are met -/

/-- A collection: an array of maps with its inner map, which is its own inner map; the data section of a variable; a program, which is there twice. -/
def exampleSpec : CollSpec :=
  ⟨0, some ⟨1, [([1], [⟨2, [9], some ⟨3, [⟨[0], ⟨4, [5, 6]⟩⟩]⟩, some ⟨5, [7]⟩, none, some ⟨6, [[8]]⟩, some 7, none⟩, ⟨7, [4], none, none, none, none, some 7, some ⟨8, [1]⟩⟩]), ([2], [])]⟩,
   some ⟨9, [([3], some ⟨10, [2], some ⟨11, []⟩, some ⟨12, [⟨[1], some ⟨13, [3]⟩⟩]⟩⟩), ([4], some ⟨10, [2], some ⟨11, []⟩, some ⟨12, [⟨[1], some ⟨13, [3]⟩⟩]⟩⟩), ([5], none)]⟩,
   some ⟨14, [([6], ⟨15, [1], some ⟨16, [5]⟩, none⟩)]⟩, some ⟨17, [2]⟩, []⟩

example : AllLinked exampleSpec ∧ ∀ a ∈ reach exampleSpec, a < 18 := by
  refine ⟨?_, by decide⟩
  intro r hr x hx
  cases hr
  simp only [List.mem_cons, List.not_mem_nil, or_false] at hx
  rcases hx with rfl | rfl
  · exact .next _ _ _ rfl (by decide) (.last _ (.inr rfl))
  · exact .null

/-- Setting the variable of the copy changes the copy, and not the original; writing into the value of the data section changes both. -/
example : (copy exampleSpec 18).2 = 35 ∧
    ((copy exampleSpec 18).1.vars.map fun r => r.val.map fun x => x.2.value) = some [some ⟨33, [5]⟩] ∧
    values (copy exampleSpec 18).1 = [4] := by decide

/-- An edit which sets bytes. -/
def setBytes (b : Bytes) : Edit := ⟨fun x => x, fun x => x, fun x => x, fun x => x, fun x => x, fun x => x, fun x => x, fun _ => b, fun x => x, fun x => x, fun x => x⟩

example : ((write 33 (setBytes [1]) (copy exampleSpec 18).1).vars.map fun r => r.val.map fun x => x.2.value) = some [some ⟨33, [1]⟩] ∧
    write 33 (setBytes [1]) exampleSpec = exampleSpec ∧
    write 4 (setBytes [1]) exampleSpec ≠ exampleSpec ∧ write 4 (setBytes [1]) (copy exampleSpec 18).1 ≠ (copy exampleSpec 18).1 := by decide

end Ebpf.SpecCopy
