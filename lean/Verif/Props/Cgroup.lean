import Verif.Spec.Cgroup
/-!
# C86: links to cgroups
-/
namespace Ebpf.Cgroup
open Ebpf.CgroupSpec

/-! ## Descriptors -/

theorem get_new_self (f : Fds) (o : Obj) : (f.new o).1.get (f.new o).2 = some o := by simp [Fds.new, Fds.get]

theorem get_mem {f : Fds} {fd : Nat} {o : Obj} (h : f.get fd = some o) : (fd, o) ∈ f.open_ := by
  unfold Fds.get at h
  cases hf : f.open_.find? (fun x => x.1 == fd) with
  | none => rw [hf] at h; cases h
  | some x =>
    rw [hf] at h
    have h1 := List.find?_some hf
    have h2 := List.mem_of_find?_eq_some hf
    obtain ⟨a, b⟩ := x
    simp only [Option.map_some, Option.some.injEq] at h
    have : a = fd := by simpa using h1
    subst this; subst h; exact h2

theorem get_lt {f : Fds} (hw : FWf f) {fd : Nat} {o : Obj} (h : f.get fd = some o) : fd < f.next := hw.fresh _ (get_mem h)

theorem get_new_old {f : Fds} {o : Obj} {fd : Nat} (h : fd < f.next) : (f.new o).1.get fd = f.get fd := by
  simp only [Fds.new, Fds.get, List.find?_cons]
  rw [show (f.next == fd) = false by simpa using (by omega : f.next ≠ fd)]

theorem get_close {f : Fds} {fd x : Nat} (h : x ≠ fd) : (f.close fd).get x = f.get x := by
  unfold Fds.close Fds.get
  simp only
  congr 1
  rw [List.find?_filter]
  congr 1
  funext a
  by_cases ha : a.1 = x
  · simp [ha, h]
  · simp [ha]

theorem close_new {f : Fds} (hw : FWf f) (o : Obj) : (f.new o).1.close (f.new o).2 = ⟨f.open_, f.next + 1⟩ := by
  simp only [Fds.new, Fds.close, List.filter_cons]
  simp only [bne_self_eq_false, Bool.false_eq_true, if_false]
  congr 1
  rw [List.filter_eq_self]
  intro a ha
  have := hw.fresh a ha
  simpa using (by omega : a.1 ≠ f.next)

theorem new_wf {f : Fds} (hw : FWf f) (o : Obj) : FWf (f.new o).1 := by
  refine ⟨?_, ?_⟩
  · intro x hx
    simp only [Fds.new, List.mem_cons] at hx ⊢
    rcases hx with rfl | hx
    · exact Nat.lt_succ_self _
    · exact Nat.lt_succ_of_lt (hw.fresh x hx)
  · simp only [Fds.new, List.map_cons, List.nodup_cons]
    refine ⟨?_, hw.nodup⟩
    intro hm
    obtain ⟨x, hx, he⟩ := List.mem_map.mp hm
    have := hw.fresh x hx
    omega

theorem close_wf {f : Fds} (hw : FWf f) (fd : Nat) : FWf (f.close fd) := by
  refine ⟨fun x hx => hw.fresh x ((List.mem_filter.mp hx).1), ?_⟩
  have : ((f.close fd).open_.map (·.1)).Sublist (f.open_.map (·.1)) := (List.filter_sublist).map _
  exact this.nodup hw.nodup

theorem next_wf {f : Fds} (hw : FWf f) {n : Nat} (h : f.next ≤ n) : FWf ⟨f.open_, n⟩ := ⟨fun x hx => Nat.lt_of_lt_of_le (hw.fresh x hx) h, hw.nodup⟩

/-! ## Lists -/

theorem replaceFirst_some {f : Ent → Bool} {n : Ent} {l l' : List Ent} (h : replaceFirst f n l = some l') :
    ∃ a e b, l = a ++ e :: b ∧ l' = a ++ n :: b ∧ f e = true ∧ ∀ x ∈ a, f x = false := by
  induction l generalizing l' with
  | nil => cases h
  | cons x r ih =>
    unfold replaceFirst at h
    cases hf : f x with
    | true => rw [hf] at h; cases h; exact ⟨[], x, r, rfl, rfl, hf, by simp⟩
    | false =>
      rw [hf] at h
      simp only [Bool.false_eq_true, if_false] at h
      cases hr : replaceFirst f n r with
      | none => rw [hr] at h; cases h
      | some r' =>
        rw [hr] at h
        cases h
        obtain ⟨a, e, b, h1, h2, h3, h4⟩ := ih hr
        refine ⟨x :: a, e, b, by rw [h1]; rfl, by rw [h2]; rfl, h3, ?_⟩
        intro y hy
        rcases List.mem_cons.mp hy with rfl | hy
        · exact hf
        · exact h4 y hy

theorem removeFirst_some {f : Ent → Bool} {l l' : List Ent} (h : removeFirst f l = some l') :
    ∃ a e b, l = a ++ e :: b ∧ l' = a ++ b ∧ f e = true ∧ ∀ x ∈ a, f x = false := by
  induction l generalizing l' with
  | nil => cases h
  | cons x r ih =>
    unfold removeFirst at h
    cases hf : f x with
    | true => rw [hf] at h; cases h; exact ⟨[], x, r, rfl, rfl, hf, by simp⟩
    | false =>
      rw [hf] at h
      simp only [Bool.false_eq_true, if_false] at h
      cases hr : removeFirst f r with
      | none => rw [hr] at h; cases h
      | some r' =>
        rw [hr] at h
        cases h
        obtain ⟨a, e, b, h1, h2, h3, h4⟩ := ih hr
        refine ⟨x :: a, e, b, by rw [h1]; rfl, by rw [h2]; rfl, h3, ?_⟩
        intro y hy
        rcases List.mem_cons.mp hy with rfl | hy
        · exact hf
        · exact h4 y hy

theorem removeFirst_mem {f : Ent → Bool} {l : List Ent} {e : Ent} (h : e ∈ l) (hf : f e = true) : ∃ l', removeFirst f l = some l' := by
  induction l with
  | nil => cases h
  | cons x r ih =>
    unfold removeFirst
    cases hx : f x with
    | true => exact ⟨r, rfl⟩
    | false =>
      simp only [Bool.false_eq_true, if_false]
      rcases List.mem_cons.mp h with rfl | h
      · rw [hf] at hx; cases hx
      · obtain ⟨l', hl⟩ := ih h
        exact ⟨x :: l', by rw [hl]; rfl⟩

theorem replaceFirst_mem {f : Ent → Bool} {n : Ent} {l : List Ent} {e : Ent} (h : e ∈ l) (hf : f e = true) : ∃ l', replaceFirst f n l = some l' := by
  induction l with
  | nil => cases h
  | cons x r ih =>
    unfold replaceFirst
    cases hx : f x with
    | true => exact ⟨_, rfl⟩
    | false =>
      simp only [Bool.false_eq_true, if_false]
      rcases List.mem_cons.mp h with rfl | h
      · rw [hf] at hx; cases hx
      · obtain ⟨l', hl⟩ := ih h
        exact ⟨x :: l', by rw [hl]; rfl⟩

/-- The entry of a program attached without a link. -/
theorem like (p : Nat) (e : Ent) : (e.prog == p && e.link.isNone) = true ↔ e = ⟨p, none⟩ := by
  cases e with
  | mk a b => cases b <;> simp

theorem nodup_split {a b : List Ent} {e : Ent} (h : (a ++ e :: b).Nodup) : (∀ x ∈ a, x ≠ e) ∧ (∀ x ∈ b, x ≠ e) := by
  rw [List.nodup_append] at h
  obtain ⟨_, h2, h3⟩ := h
  rw [List.nodup_cons] at h2
  exact ⟨fun x hx => h3 x hx e (List.mem_cons_self ..), fun x hx he => h2.1 (he ▸ hx)⟩

theorem removeFirst_filter {l : List Ent} (hd : l.Nodup) {p : Nat} (h : (⟨p, none⟩ : Ent) ∈ l) :
    removeFirst (fun e => e.prog == p && e.link.isNone) l = some (l.filter (fun e => e ≠ ⟨p, none⟩)) := by
  obtain ⟨l', hl⟩ := removeFirst_mem (f := fun e => e.prog == p && e.link.isNone) h ((like p _).mpr rfl)
  rw [hl]
  obtain ⟨a, e, b, h1, h2, h3, _⟩ := removeFirst_some hl
  have he := (like p e).mp h3
  subst he
  rw [h1] at hd ⊢
  obtain ⟨ha, hb⟩ := nodup_split hd
  rw [h2, List.filter_append, List.filter_cons]
  rw [List.filter_eq_self.mpr (fun x hx => by simpa using ha x hx), List.filter_eq_self.mpr (fun x hx => by simpa using hb x hx)]
  simp

theorem replaceFirst_map {l : List Ent} (hd : l.Nodup) {p : Nat} (n : Ent) (h : (⟨p, none⟩ : Ent) ∈ l) :
    replaceFirst (fun e => e.prog == p && e.link.isNone) n l = some (l.map (fun e => if e = ⟨p, none⟩ then n else e)) := by
  obtain ⟨l', hl⟩ := replaceFirst_mem (f := fun e => e.prog == p && e.link.isNone) (n := n) h ((like p _).mpr rfl)
  rw [hl]
  obtain ⟨a, e, b, h1, h2, h3, _⟩ := replaceFirst_some hl
  have he := (like p e).mp h3
  subst he
  rw [h1] at hd ⊢
  obtain ⟨ha, hb⟩ := nodup_split hd
  rw [h2, List.map_append, List.map_cons, if_pos rfl]
  have e1 : a.map (fun e => if e = ⟨p, none⟩ then n else e) = a := by
    conv => rhs; rw [← List.map_id a]
    exact List.map_congr_left (fun x hx => by rw [if_neg (ha x hx)]; rfl)
  have e2 : b.map (fun e => if e = ⟨p, none⟩ then n else e) = b := by
    conv => rhs; rw [← List.map_id b]
    exact List.map_congr_left (fun x hx => by rw [if_neg (hb x hx)]; rfl)
  rw [e1, e2]

/-! ## Hooks -/

theorem set_self (k : Kern) (c t : Nat) (h : Hook) : (k.set c t h).hook c t = h := by simp [Kern.set]
theorem set_other (k : Kern) {c t c' t' : Nat} (h : Hook) (hne : ¬ (c' = c ∧ t' = t)) : (k.set c t h).hook c' t' = k.hook c' t' := by simp only [Kern.set]; rw [if_neg hne]

/-- Attaching in multi mode. -/
theorem attach_multi {h h' : Hook} {n : Ent} (he : hookAttach h n 2 none = some h') :
    h' = ⟨h.ents ++ [n], 2⟩ ∧ (h.ents = [] ∨ h.flags = 2) ∧ (n.link = none → n ∉ h.ents) := by
  unfold hookAttach at he
  rw [if_neg (by decide)] at he
  by_cases h1 : h.ents ≠ [] ∧ h.flags ≠ 2 &&& 3
  · rw [if_pos h1] at he; cases he
  rw [if_neg h1] at he
  by_cases h2 : h.ents.length ≥ 64
  · rw [if_pos h2] at he; cases he
  rw [if_neg h2, if_pos (by decide)] at he
  by_cases h3 : n.link = none ∧ h.ents.any (fun e => e.prog == n.prog && e.link.isNone) ∧ none ≠ some n.prog
  · rw [if_pos h3] at he; cases he
  rw [if_neg h3] at he
  cases he
  refine ⟨rfl, ?_, ?_⟩
  · by_cases h4 : h.ents = []
    · exact .inl h4
    · right
      by_cases h5 : h.flags = 2
      · exact h5
      · exact absurd ⟨h4, h5⟩ h1
  · intro hn hm
    apply h3
    refine ⟨hn, ?_, by simp⟩
    rw [List.any_eq_true]
    exact ⟨n, hm, by simp [hn]⟩

theorem attach_multi_ok {h : Hook} {n : Ent} (h1 : h.ents = [] ∨ h.flags = 2) (h2 : h.ents.length < 64) (h3 : n.link = none → n ∉ h.ents) :
    hookAttach h n 2 none = some ⟨h.ents ++ [n], 2⟩ := by
  unfold hookAttach
  rw [if_neg (by decide), if_neg (by rintro ⟨a, b⟩; exact h1.elim a b), if_neg (by omega), if_pos (by decide)]
  rw [if_neg]
  · rfl
  · rintro ⟨a, b, _⟩
    rw [List.any_eq_true] at b
    obtain ⟨x, hx, hf⟩ := b
    have hxe := (like n.prog x).mp hf
    have : n = ⟨n.prog, none⟩ := by cases n with | mk p q => simp only at a; rw [a]
    exact h3 a (by rw [this, ← hxe]; exact hx)

/-- Attaching keeps the kernel's state one. -/
theorem attach_wf {k : Kern} (hk : KWf k) {c t : Nat} {n : Ent} {nl : Nat} {h : Hook} (he : hookAttach (k.hook c t) n 2 none = some h) (hnl : k.nextLink ≤ nl)
    (hl : ∀ l, n.link = some l → l = k.nextLink ∧ l < nl) : KWf { k.set c t h with nextLink := nl } := by
  obtain ⟨rfl, h1, h2⟩ := attach_multi he
  have hnew : n ∉ (k.hook c t).ents := by
    cases hnk : n.link with
    | none => exact h2 hnk
    | some l =>
      intro hm
      have := hk.fresh c t n hm l hnk
      have := (hl l hnk).1
      omega
  have hmem : ∀ c' t' e, e ∈ ((k.set c t ⟨(k.hook c t).ents ++ [n], 2⟩).hook c' t').ents → e ∈ (k.hook c' t').ents ∨ (c' = c ∧ t' = t ∧ e = n) := by
    intro c' t' e hm
    by_cases hx : c' = c ∧ t' = t
    · obtain ⟨rfl, rfl⟩ := hx
      rw [set_self] at hm
      rcases List.mem_append.mp hm with hm | hm
      · exact .inl hm
      · exact .inr ⟨rfl, rfl, List.mem_singleton.mp hm⟩
    · rw [set_other _ _ hx] at hm; exact .inl hm
  refine ⟨?_, ?_, ?_, ?_⟩
  · intro c' t'
    show ((k.set c t _).hook c' t').ents.Nodup
    by_cases hx : c' = c ∧ t' = t
    · obtain ⟨rfl, rfl⟩ := hx
      rw [set_self]
      rw [List.nodup_append]
      refine ⟨hk.nodup _ _, by simp, ?_⟩
      intro a ha b hb
      rw [List.mem_singleton.mp hb]
      rintro rfl
      exact hnew ha
    · rw [set_other _ _ hx]; exact hk.nodup _ _
  · intro c' t' e hm l hel
    show l < nl
    rcases hmem c' t' e hm with hm | ⟨_, _, rfl⟩
    · have := hk.fresh _ _ e hm l hel; omega
    · exact (hl l hel).2
  · intro c1 t1 c2 t2 e1 e2 l m1 m2 l1 l2
    rcases hmem c1 t1 e1 m1 with n1 | ⟨x1, y1, z1⟩ <;> rcases hmem c2 t2 e2 m2 with n2 | ⟨x2, y2, z2⟩
    · exact hk.unique _ _ _ _ _ _ l n1 n2 l1 l2
    · have := hk.fresh _ _ _ n1 l l1
      have := (hl l (z2 ▸ l2)).1
      omega
    · have := hk.fresh _ _ _ n2 l l2
      have := (hl l (z1 ▸ l1)).1
      omega
    · exact ⟨x1.trans x2.symm, y1.trans y2.symm, z1.trans z2.symm⟩
  · intro c' t' e hm hel
    show ((k.set c t _).hook c' t').flags = 2
    by_cases hx : c' = c ∧ t' = t
    · obtain ⟨rfl, rfl⟩ := hx
      rw [set_self]
    · rw [set_other _ _ hx]
      rcases hmem c' t' e hm with hm | ⟨rfl, rfl, rfl⟩
      · exact hk.multi _ _ e hm hel
      · exact absurd ⟨rfl, rfl⟩ hx

/-! ## Attaching -/

/-- What attaching leaves behind: with an error nothing, otherwise one more program and the descriptors of the link. -/
structure Attached (w w' : World Kern) (c t p : Nat) (h : Handle) (l : Option Nat) : Prop where
  holds : Holds w'.fds w'.kern h c t ⟨p, l⟩
  last : (w'.kern.hook c t).ents = (w.kern.hook c t).ents ++ [⟨p, l⟩]
  others : ∀ c' t', ¬ (c' = c ∧ t' = t) → w'.kern.hook c' t' = w.kern.hook c' t'
  fds : w'.fds.open_.map (·.1) = owned h ++ w.fds.open_.map (·.1)
  get : ∀ fd, fd < w.fds.next → w'.fds.get fd = w.fds.get fd

theorem newLink_spec (e : Env) (w : World Kern) (cg c t prog p : Nat) (hc : w.fds.get cg = some (.cgroup c)) (hp : w.fds.get prog = some (.prog p)) :
    (newLinkCgroup linux e w cg t prog = .error .other ∨ (e.haveLink = .error .notSupported ∧ newLinkCgroup linux e w cg t prog = .error .notSupported)) ∨
    ∃ h, hookAttach (w.kern.hook c t) ⟨p, some w.kern.nextLink⟩ 2 none = some h ∧
      newLinkCgroup linux e w cg t prog = .ok (⟨(w.fds.new (.link w.kern.nextLink)).1, { w.kern.set c t h with nextLink := w.kern.nextLink + 1 }⟩, .link w.fds.next) := by
  unfold newLinkCgroup
  cases hl : e.haveLink with
  | error x =>
    cases x with
    | notSupported => exact .inl (.inr ⟨rfl, rfl⟩)
    | other => exact .inl (.inl rfl)
  | ok u =>
    cases u
    simp only [hp]
    cases e.linkFails with
    | true => exact .inl (.inl rfl)
    | false =>
      simp only [Bool.false_eq_true, if_false, hc]
      cases ha : hookAttach (w.kern.hook c t) ⟨p, some w.kern.nextLink⟩ 2 none with
      | none =>
        have : linux.linkCreate w.kern c t p = none := by simp only [linux, ha]; rfl
        rw [this]
        exact .inl (.inl rfl)
      | some h =>
        have : linux.linkCreate w.kern c t p = some ({ w.kern.set c t h with nextLink := w.kern.nextLink + 1 }, w.kern.nextLink) := by simp only [linux, ha]; rfl
        rw [this]
        exact .inr ⟨h, rfl, rfl⟩

theorem newProg_spec (e : Env) (w : World Kern) (hf : FWf w.fds) (hr : e.haveReplace = .ok () ∧ e.haveProgAttach = .ok ()) (cg c t prog p : Nat) (hc : w.fds.get cg = some (.cgroup c)) (hp : w.fds.get prog = some (.prog p)) :
    (∃ n, w.fds.next ≤ n ∧ newProgAttachCgroup linux e w cg t prog 2 = (⟨⟨w.fds.open_, n⟩, w.kern⟩, .error .other)) ∨
    ∃ h, hookAttach (w.kern.hook c t) ⟨p, none⟩ 2 none = some h ∧
      newProgAttachCgroup linux e w cg t prog 2 = (⟨(w.fds.new (.prog p)).1, w.kern.set c t h⟩, .ok (.emulated cg w.fds.next t 2)) := by
  unfold newProgAttachCgroup
  simp only [hr.1, show (2 &&& 2 > 0) by decide, if_true]
  unfold clone
  simp only [hp]
  cases e.dupFails with
  | true => exact .inl ⟨w.fds.next, Nat.le_refl _, rfl⟩
  | false =>
    simp only [Bool.false_eq_true, if_false]
    have g1 : (w.fds.new (.prog p)).1.get cg = some (.cgroup c) := by rw [get_new_old (get_lt hf hc)]; exact hc
    have g2 : (w.fds.new (.prog p)).1.get (w.fds.new (.prog p)).2 = some (.prog p) := get_new_self ..
    unfold rawAttach
    simp only [g1, g2]
    cases e.attachFails with
    | true => exact .inl ⟨w.fds.next + 1, Nat.le_succ _, by simp only [if_true, hr.2, close_new hf]⟩
    | false =>
      simp only [Bool.false_eq_true, if_false]
      cases ha : hookAttach (w.kern.hook c t) ⟨p, none⟩ 2 none with
      | none =>
        have : linux.attach w.kern c t p 2 none = none := by simp only [linux, ha]; rfl
        rw [this]
        exact .inl ⟨w.fds.next + 1, Nat.le_succ _, by simp only [hr.2, close_new hf]⟩
      | some h =>
        have : linux.attach w.kern c t p 2 none = some (w.kern.set c t h) := by simp only [linux, ha]; rfl
        rw [this]
        exact .inr ⟨h, rfl, rfl⟩

/-- **C86**: AttachCgroup fails without leaving a descriptor open or a program attached, or the program is attached, last, to that cgroup and attach type, nothing else has changed,
and the link holds it by descriptors of its own. -/
theorem attach_exact_partial (e : Env) (w w' : World Kern) (hm : Modern e) (hf : FWf w.fds) (hk : KWf w.kern) (t prog p : Nat) (hp : w.fds.get prog = some (.prog p)) (r : Except Err Handle)
    (hr : attachCgroup linux e w t prog = (w', r)) :
    (∀ x, r = .error x → w'.fds.open_ = w.fds.open_ ∧ w'.kern = w.kern) ∧ (∀ h, r = .ok h → ∃ c l, e.path = some c ∧ Attached w w' c t p h l) ∧
    FWf w'.fds ∧ KWf w'.kern ∧ w.fds.next ≤ w'.fds.next := by
  unfold attachCgroup at hr
  cases hc : e.path with
  | none =>
    rw [hc] at hr
    cases hr
    exact ⟨fun _ _ => ⟨rfl, rfl⟩, (fun _ h => nomatch h), hf, hk, Nat.le_refl _⟩
  | some c =>
    rw [hc] at hr
    simp only at hr
    have hf1 := new_wf hf (.cgroup c)
    have g1 : (w.fds.new (.cgroup c)).1.get (w.fds.new (.cgroup c)).2 = some (.cgroup c) := get_new_self ..
    have g2 : (w.fds.new (.cgroup c)).1.get prog = some (.prog p) := by rw [get_new_old (get_lt hf hp)]; exact hp
    have hcl := close_new hf (.cgroup c)
    have bad : ∀ x, (⟨(w.fds.new (.cgroup c)).1.close (w.fds.new (.cgroup c)).2, w.kern⟩, (.error x : Except Err Handle)) = (w', r) →
        (∀ x, r = .error x → w'.fds.open_ = w.fds.open_ ∧ w'.kern = w.kern) ∧ (∀ h, r = .ok h → ∃ c', ∃ l, some c = some c' ∧ Attached w w' c' t p h l) ∧
        FWf w'.fds ∧ KWf w'.kern ∧ w.fds.next ≤ w'.fds.next := by
      intro x hx
      rw [hcl] at hx
      cases hx
      exact ⟨fun _ _ => ⟨rfl, rfl⟩, (fun _ h => nomatch h), next_wf hf (Nat.le_succ _), hk, Nat.le_succ _⟩
    rcases newLink_spec e ⟨(w.fds.new (.cgroup c)).1, w.kern⟩ _ c t prog p g1 g2 with (h1 | ⟨h0, h1⟩) | ⟨h, h2, h1⟩
    · rw [h1] at hr
      exact bad .other hr
    · rw [h1] at hr
      simp only [if_true] at hr
      have hr0 := hm.resolve_left (fun hx => hx h0)
      rcases newProg_spec e ⟨(w.fds.new (.cgroup c)).1, w.kern⟩ hf1 hr0 _ c t prog p g1 g2 with ⟨n, h4, h3⟩ | ⟨h, h4, h3⟩
      · rw [h3] at hr
        simp only at hr
        have : (⟨(w.fds.new (.cgroup c)).1.open_, n⟩ : Fds).close (w.fds.new (.cgroup c)).2 = ⟨w.fds.open_, n⟩ := by
          have := congrArg Fds.open_ hcl
          unfold Fds.close at this ⊢
          simp only at this ⊢
          rw [this]
        rw [this] at hr
        cases hr
        have hn : w.fds.next ≤ n := Nat.le_of_succ_le h4
        exact ⟨fun _ _ => ⟨rfl, rfl⟩, (fun _ h => nomatch h), next_wf hf hn, hk, hn⟩
      · rw [h3] at hr
        simp only at hr
        cases hr
        obtain ⟨rfl, h5, h6⟩ := attach_multi h4
        refine ⟨(fun _ h => nomatch h), ?_, new_wf hf1 _, attach_wf hk h4 (Nat.le_refl _) (fun l h => nomatch h), ?_⟩
        · intro h hh
          cases hh
          refine ⟨c, none, rfl, ?_, ?_, ?_, rfl, ?_⟩
          · refine .emulated _ _ _ _ _ ?_ (get_new_self ..) ?_ ?_
            · rw [get_new_old (get_lt hf1 g1)]; exact g1
            · rw [set_self]; simp
            · rw [set_self]
          · rw [set_self]
          · intro c' t' hne; exact set_other _ _ hne
          · intro fd hfd
            rw [get_new_old (Nat.lt_succ_of_lt hfd), get_new_old hfd]
        · show w.fds.next ≤ w.fds.next + 1 + 1
          omega
    · rw [h1] at hr
      simp only at hr
      have hlt : w.fds.next < (w.fds.new (.cgroup c)).1.next := Nat.lt_succ_self _
      cases hr
      have h2' : hookAttach (w.kern.hook c t) ⟨p, some w.kern.nextLink⟩ 2 none = some h := h2
      obtain ⟨rfl, h5, h6⟩ := attach_multi h2'
      refine ⟨(fun _ h => nomatch h), ?_, close_wf (new_wf hf1 _) _, attach_wf hk h2' (Nat.le_succ _) (fun l h => by cases h; exact ⟨rfl, Nat.lt_succ_self _⟩), ?_⟩
      · intro h hh
        cases hh
        refine ⟨c, some w.kern.nextLink, rfl, ?_, ?_, ?_, ?_, ?_⟩
        · refine .link _ _ _ _ _ ?_ ?_
          · rw [get_close (by show w.fds.next + 1 ≠ w.fds.next; omega)]; exact get_new_self ..
          · show _ ∈ ((w.kern.set c t _).hook c t).ents
            rw [set_self]; simp
        · show ((w.kern.set c t _).hook c t).ents = _
          rw [set_self]
        · intro c' t' hne; exact set_other _ _ hne
        · simp only [Fds.new, Fds.close, owned, List.cons_append, List.nil_append]
          rw [List.filter_cons, if_pos (by simp), List.filter_cons, if_neg (by simp), List.filter_eq_self.mpr]
          · rfl
          · intro a ha
            have := hf.fresh a ha
            simp only [bne_iff_ne, ne_eq]
            omega
        · intro fd hfd
          rw [get_close (by show fd ≠ w.fds.next; omega), get_new_old (Nat.lt_succ_of_lt hfd), get_new_old hfd]
      · show w.fds.next ≤ w.fds.next + 1 + 1
        omega

/-- **C86**: nothing else makes it fail: if no call fails for other reasons and the kernel can take another program, AttachCgroup attaches it. -/
theorem attach_succeeds (e : Env) (w : World Kern) (hm : e.haveLink = .ok () ∨ (e.haveLink = .error .notSupported ∧ e.haveReplace = .ok () ∧ e.haveProgAttach = .ok ()))
    (hf : FWf w.fds) (c t prog p : Nat) (hp : w.fds.get prog = some (.prog p)) (hc : e.path = some c)
    (hd : e.dupFails = false) (hl : e.linkFails = false) (ha : e.attachFails = false)
    (h1 : (w.kern.hook c t).ents = [] ∨ (w.kern.hook c t).flags = 2) (h2 : (w.kern.hook c t).ents.length < 64) (h3 : ⟨p, none⟩ ∉ (w.kern.hook c t).ents) :
    ∃ w' h, attachCgroup linux e w t prog = (w', .ok h) := by
  have hf1 := new_wf hf (.cgroup c)
  have g1 : (w.fds.new (.cgroup c)).1.get (w.fds.new (.cgroup c)).2 = some (.cgroup c) := get_new_self ..
  have g2 : (w.fds.new (.cgroup c)).1.get prog = some (.prog p) := by rw [get_new_old (get_lt hf hp)]; exact hp
  unfold attachCgroup
  rw [hc]
  simp only
  rcases hm with hm | ⟨hm, hr, hpa⟩
  · have : ∃ x, newLinkCgroup linux e ⟨(w.fds.new (.cgroup c)).1, w.kern⟩ (w.fds.new (.cgroup c)).2 t prog = .ok x := by
      have hat := attach_multi_ok (n := ⟨p, some w.kern.nextLink⟩) h1 h2 (fun h => nomatch h)
      have : linux.linkCreate w.kern c t p = some ({ w.kern.set c t ⟨(w.kern.hook c t).ents ++ [⟨p, some w.kern.nextLink⟩], 2⟩ with nextLink := w.kern.nextLink + 1 }, w.kern.nextLink) := by
        simp only [linux, hat]; rfl
      unfold newLinkCgroup
      simp only [hm, g2, hl, Bool.false_eq_true, if_false, g1, this]
      exact ⟨_, rfl⟩
    obtain ⟨x, hx⟩ := this
    rw [hx]
    exact ⟨_, _, rfl⟩
  · have : newLinkCgroup linux e ⟨(w.fds.new (.cgroup c)).1, w.kern⟩ (w.fds.new (.cgroup c)).2 t prog = .error .notSupported := by
      unfold newLinkCgroup
      rw [hm]
    rw [this]
    simp only [if_true]
    have : ∃ w' h, newProgAttachCgroup linux e ⟨(w.fds.new (.cgroup c)).1, w.kern⟩ (w.fds.new (.cgroup c)).2 t prog 2 = (w', .ok h) := by
      have hat := attach_multi_ok (n := ⟨p, none⟩) h1 h2 (fun _ => h3)
      have g3 : ((w.fds.new (.cgroup c)).1.new (.prog p)).1.get (w.fds.new (.cgroup c)).2 = some (.cgroup c) := by rw [get_new_old (get_lt hf1 g1)]; exact g1
      have g4 : ((w.fds.new (.cgroup c)).1.new (.prog p)).1.get ((w.fds.new (.cgroup c)).1.new (.prog p)).2 = some (.prog p) := get_new_self ..
      have : linux.attach w.kern c t p 2 none = some (w.kern.set c t ⟨(w.kern.hook c t).ents ++ [⟨p, none⟩], 2⟩) := by simp only [linux, hat]; rfl
      unfold newProgAttachCgroup clone rawAttach
      simp only [hr, show (2 &&& 2 > 0) by decide, if_true, g2, hd, ha, Bool.false_eq_true, if_false, g3, g4, this]
      exact ⟨_, _, rfl⟩
    obtain ⟨w', h, hx⟩ := this
    rw [hx]
    exact ⟨w', h, rfl⟩

/-! ## Changing and closing -/

/-- What closing leaves behind. -/
structure Detached (w w' : World Kern) (c t : Nat) (x : Ent) (h : Handle) : Prop where
  ents : (w'.kern.hook c t).ents = (w.kern.hook c t).ents.filter (fun e => e ≠ x)
  flags : ∀ c' t', (w'.kern.hook c' t').flags = (w.kern.hook c' t').flags
  others : ∀ c' t', ¬ (c' = c ∧ t' = t) → (w'.kern.hook c' t').ents = (w.kern.hook c' t').ents
  fds : w'.fds.open_ = w.fds.open_.filter (fun y => !(owned h).contains y.1)

theorem kern_sub {k k' : Kern} (hk : KWf k) (hn : k'.nextLink = k.nextLink) (hfl : ∀ c t, (k'.hook c t).flags = (k.hook c t).flags)
    (hs : ∀ c t, (k'.hook c t).ents.Sublist (k.hook c t).ents) : KWf k' :=
  ⟨fun c t => (hs c t).nodup (hk.nodup c t), fun c t e he l hl => hn ▸ hk.fresh c t e ((hs c t).subset he) l hl,
    fun c t c' t' e e' l h1 h2 h3 h4 => hk.unique c t c' t' e e' l ((hs c t).subset h1) ((hs c' t').subset h2) h3 h4,
    fun c t e he hl => hfl c t ▸ hk.multi c t e ((hs c t).subset he) hl⟩

/-- **C86**: Close closes all descriptors of the link, and detaches its program and nothing else if the kernel doesn't refuse to. -/
theorem close_exact (e : Env) (w : World Kern) (hf : FWf w.fds) (hk : KWf w.kern) (h : Handle) (c t : Nat) (x : Ent) (hh : Holds w.fds w.kern h c t x) :
    (e.detachFails = false → (close linux e w h).2 = true ∧ Detached w (close linux e w h).1 c t x h) ∧
    ((close linux e w h).1.fds.open_ = w.fds.open_.filter (fun y => !(owned h).contains y.1)) ∧
    ((close linux e w h).2 = false → (close linux e w h).1.kern = w.kern) ∧
    FWf (close linux e w h).1.fds ∧ KWf (close linux e w h).1.kern := by
  cases hh with
  | link fd l _ _ p h1 h2 =>
    have hcl : close linux e w (.link fd) = (⟨w.fds.close fd, linux.linkRelease w.kern l⟩, true) := by
      unfold close; simp only [h1]
    have hfil : w.fds.open_.filter (fun y => !(owned (.link fd)).contains y.1) = (w.fds.close fd).open_ := by
      unfold Fds.close owned
      congr 1
      funext y
      simp only [List.contains_cons, List.contains_nil, Bool.or_false, bne]
    rw [hcl]
    refine ⟨fun _ => ⟨rfl, ?_, fun _ _ => rfl, ?_, hfil.symm⟩, hfil.symm, (fun h => nomatch h), close_wf hf _, ?_⟩
    · show (w.kern.hook c t).ents.filter _ = _
      apply List.filter_congr
      intro a ha
      by_cases hax : a.link = some l
      · obtain ⟨_, _, rfl⟩ := hk.unique _ _ _ _ _ _ l ha h2 hax rfl
        simp
      · have : a ≠ ⟨p, some l⟩ := by rintro rfl; exact hax rfl
        simp [this, hax]
    · intro c' t' hne
      show (w.kern.hook c' t').ents.filter _ = _
      rw [List.filter_eq_self]
      intro a ha
      have : a.link ≠ some l := by
        intro hl
        obtain ⟨hc, ht, _⟩ := hk.unique _ _ _ _ _ _ l ha h2 hl rfl
        exact hne ⟨hc, ht⟩
      simpa using this
    · exact kern_sub hk rfl (fun _ _ => rfl) (fun _ _ => List.filter_sublist)
  | emulated cg cur _ _ p h1 h2 h3 h4 =>
    have hne : cur ≠ cg := by
      rintro rfl
      rw [h1] at h2; cases h2
    have hfil : w.fds.open_.filter (fun y => !(owned (.emulated cg cur t 2)).contains y.1) = ((w.fds.close cur).close cg).open_ := by
      unfold Fds.close owned
      simp only [List.filter_filter]
      congr 1
      funext y
      simp only [List.contains_cons, List.contains_nil, Bool.or_false, Bool.not_or, bne, Bool.and_comm]
    have hwf := close_wf (close_wf hf cur) cg
    have hdet : linux.detach w.kern c t p = some (w.kern.set c t ⟨(w.kern.hook c t).ents.filter (fun e => e ≠ ⟨p, none⟩), 2⟩) := by
      simp only [linux, hookDetach, h4]
      rw [if_pos (by decide), removeFirst_filter (hk.nodup c t) h3]
      rfl
    unfold close rawDetach
    cases e.detachFails with
    | true =>
      simp only [if_true]
      exact ⟨(fun h => nomatch h), hfil.symm, fun _ => trivial, hwf, hk⟩
    | false =>
      simp only [Bool.false_eq_true, if_false, h1, h2, hdet]
      refine ⟨fun _ => ⟨trivial, ?_, ?_, ?_, hfil.symm⟩, hfil.symm, (fun h => nomatch h), hwf, ?_⟩
      · rw [set_self]
      · intro c' t'
        by_cases hx : c' = c ∧ t' = t
        · obtain ⟨rfl, rfl⟩ := hx
          rw [set_self, h4]
        · rw [set_other _ _ hx]
      · intro c' t' hx
        rw [set_other _ _ hx]
      · refine kern_sub hk rfl ?_ ?_
        · intro c' t'
          by_cases hx : c' = c ∧ t' = t
          · obtain ⟨rfl, rfl⟩ := hx
            rw [set_self, h4]
          · rw [set_other _ _ hx]
        · intro c' t'
          by_cases hx : c' = c ∧ t' = t
          · obtain ⟨rfl, rfl⟩ := hx
            rw [set_self]; exact List.filter_sublist
          · rw [set_other _ _ hx]; exact List.Sublist.refl _

/-- What changing the program leaves behind. -/
structure Updated (w w' : World Kern) (c t p : Nat) (x : Ent) (h h' : Handle) : Prop where
  holds : Holds w'.fds w'.kern h' c t ⟨p, x.link⟩
  ents : (w'.kern.hook c t).ents = (w.kern.hook c t).ents.map (fun e => if e = x then ⟨p, x.link⟩ else e)
  flags : ∀ c' t', (w'.kern.hook c' t').flags = (w.kern.hook c' t').flags
  others : ∀ c' t', ¬ (c' = c ∧ t' = t) → (w'.kern.hook c' t').ents = (w.kern.hook c' t').ents
  fds : w'.fds.open_.filter (fun y => !(owned h').contains y.1) = w.fds.open_.filter (fun y => !(owned h).contains y.1)
  get : ∀ fd, fd < w.fds.next → fd ∉ owned h → w'.fds.get fd = w.fds.get fd
  new : ∀ fd ∈ owned h', fd ∈ owned h ∨ w.fds.next ≤ fd

theorem nodup_map_on {α β : Type} {f : α → β} {l : List α} (hd : l.Nodup) (hi : ∀ a ∈ l, ∀ b ∈ l, f a = f b → a = b) : (l.map f).Nodup := by
  rw [List.Nodup, List.pairwise_map]
  rw [List.Nodup] at hd
  refine List.Pairwise.imp_of_mem ?_ hd
  intro a b ha hb hne he
  exact hne (hi a ha b hb he)

theorem kern_map {k k' : Kern} (hk : KWf k) (hn : k'.nextLink = k.nextLink) (hfl : ∀ c t, (k'.hook c t).flags = (k.hook c t).flags) (f : Nat → Nat → Ent → Ent)
    (hs : ∀ c t, (k'.hook c t).ents = (k.hook c t).ents.map (f c t)) (hl : ∀ c t e, (f c t e).link = e.link)
    (hi : ∀ c t, ∀ a ∈ (k.hook c t).ents, ∀ b ∈ (k.hook c t).ents, f c t a = f c t b → a = b) : KWf k' := by
  refine ⟨fun c t => hs c t ▸ nodup_map_on (hk.nodup c t) (hi c t), ?_, ?_, ?_⟩
  · intro c t e he l hel
    rw [hs c t] at he
    obtain ⟨a, ha, rfl⟩ := List.mem_map.mp he
    rw [hl] at hel
    rw [hn]
    exact hk.fresh c t a ha l hel
  · intro c t c' t' e e' l he he' h1 h2
    rw [hs c t] at he
    rw [hs c' t'] at he'
    obtain ⟨a, ha, rfl⟩ := List.mem_map.mp he
    obtain ⟨a', ha', rfl⟩ := List.mem_map.mp he'
    rw [hl] at h1 h2
    obtain ⟨rfl, rfl, rfl⟩ := hk.unique c t c' t' a a' l ha ha' h1 h2
    exact ⟨rfl, rfl, rfl⟩
  · intro c t e he hel
    rw [hs c t] at he
    obtain ⟨a, ha, rfl⟩ := List.mem_map.mp he
    rw [hl] at hel
    rw [hfl]
    exact hk.multi c t a ha hel

/-- Replacing in multi mode. -/
theorem attach_replace {h : Hook} (hd : h.ents.Nodup) {p q : Nat} (hfl : h.flags = 2) (hq : ⟨q, none⟩ ∈ h.ents) (h' : Hook) (he : hookAttach h ⟨p, none⟩ (2 ||| 4) (some q) = some h') :
    h' = ⟨h.ents.map (fun e => if e = ⟨q, none⟩ then ⟨p, none⟩ else e), 2⟩ ∧ (p = q ∨ ⟨p, none⟩ ∉ h.ents) := by
  unfold hookAttach at he
  rw [if_neg (by decide), if_neg (by rintro ⟨_, b⟩; exact b hfl)] at he
  by_cases h2 : h.ents.length ≥ 64
  · rw [if_pos h2] at he; cases he
  rw [if_neg h2, if_pos (by decide)] at he
  by_cases h3 : (⟨p, none⟩ : Ent).link = none ∧ h.ents.any (fun e => e.prog == (⟨p, none⟩ : Ent).prog && e.link.isNone) ∧ some q ≠ some (⟨p, none⟩ : Ent).prog
  · rw [if_pos h3] at he; cases he
  rw [if_neg h3] at he
  simp only [replaceFirst_map hd ⟨p, none⟩ hq, Option.map_some, Option.some.injEq] at he
  refine ⟨he.symm, ?_⟩
  by_cases hpq : p = q
  · exact .inl hpq
  · right
    intro hm
    apply h3
    refine ⟨rfl, ?_, ?_⟩
    · rw [List.any_eq_true]
      exact ⟨_, hm, by simp⟩
    · intro hx
      exact hpq (Option.some.inj hx).symm

/-- **C86**: Update changes nothing if it fails; otherwise the link's program, and nothing else, is replaced in place by the new one, which the link holds by itself; the old one is let go. -/
theorem update_exact (e : Env) (w w' : World Kern) (hf : FWf w.fds) (hk : KWf w.kern) (h h' : Handle) (c t : Nat) (x : Ent) (hh : Holds w.fds w.kern h c t x)
    (prog p : Nat) (hp : w.fds.get prog = some (.prog p)) (ok : Bool) (hr : update linux e w h prog = (w', h', ok)) :
    (ok = false → h' = h ∧ w'.fds.open_ = w.fds.open_ ∧ w'.kern = w.kern) ∧ (ok = true → Updated w w' c t p x h h') ∧ FWf w'.fds ∧ KWf w'.kern ∧ w.fds.next ≤ w'.fds.next := by
  cases hh with
  | link fd l _ _ q h1 h2 =>
    unfold update at hr
    simp only [h1, hp] at hr
    cases hl : e.linkFails with
    | true =>
      rw [hl] at hr
      cases hr
      exact ⟨fun _ => ⟨rfl, rfl, rfl⟩, (fun h => nomatch h), hf, hk, Nat.le_refl _⟩
    | false =>
      rw [hl] at hr
      simp only [Bool.false_eq_true, if_false, linux] at hr
      cases hr
      have hmap : ∀ c' t', (w.kern.hook c' t').ents.map (fun e => if e.link = some l then { e with prog := p } else e) =
          (w.kern.hook c' t').ents.map (fun e => if e = ⟨q, some l⟩ then ⟨p, some l⟩ else e) := by
        intro c' t'
        apply List.map_congr_left
        intro a ha
        by_cases hal : a.link = some l
        · obtain ⟨_, _, rfl⟩ := hk.unique _ _ _ _ _ _ l ha h2 hal rfl
          simp
        · rw [if_neg hal, if_neg (by rintro rfl; exact hal rfl)]
      refine ⟨(fun h => nomatch h), fun _ => ⟨?_, ?_, fun _ _ => rfl, ?_, rfl, fun _ _ _ => rfl, fun fd hfd => .inl hfd⟩, hf, ?_, Nat.le_refl _⟩
      · refine .link _ _ _ _ _ h1 ?_
        show _ ∈ (w.kern.hook c t).ents.map _
        exact List.mem_map.mpr ⟨_, h2, by simp⟩
      · exact hmap c t
      · intro c' t' hne
        show (w.kern.hook c' t').ents.map _ = _
        rw [hmap]
        conv => rhs; rw [← List.map_id (w.kern.hook c' t').ents]
        apply List.map_congr_left
        intro a ha
        rw [if_neg]
        · rfl
        · rintro rfl
          obtain ⟨hc, ht, _⟩ := hk.unique _ _ _ _ _ _ l ha h2 rfl rfl
          exact hne ⟨hc, ht⟩
      · refine kern_map hk rfl (fun _ _ => rfl) (fun _ _ e => if e.link = some l then { e with prog := p } else e) (fun _ _ => rfl) ?_ ?_
        · intro _ _ a
          split <;> rfl
        · intro c' t' a ha b hb hab
          by_cases hal : a.link = some l <;> by_cases hbl : b.link = some l
          · exact (hk.unique _ _ _ _ _ _ l ha hb hal hbl).2.2
          · rw [if_pos hal, if_neg hbl] at hab
            exact absurd (by rw [← hab]; exact hal) hbl
          · rw [if_neg hal, if_pos hbl] at hab
            exact absurd (by rw [hab]; exact hbl) hal
          · rw [if_neg hal, if_neg hbl] at hab
            exact hab
  | emulated cg cur _ _ q h1 h2 h3 h4 =>
    have hne : cur ≠ cg := by
      rintro rfl
      rw [h1] at h2; cases h2
    unfold update clone at hr
    simp only [hp] at hr
    cases hd : e.dupFails with
    | true =>
      rw [hd] at hr
      cases hr
      exact ⟨fun _ => ⟨rfl, rfl, rfl⟩, (fun h => nomatch h), hf, hk, Nat.le_refl _⟩
    | false =>
      rw [hd] at hr
      simp only [Bool.false_eq_true, if_false, show (2 &&& 2 > 0) by decide, if_true] at hr
      have hf1 := new_wf hf (.prog p)
      have g1 : (w.fds.new (.prog p)).1.get cg = some (.cgroup c) := by rw [get_new_old (get_lt hf h1)]; exact h1
      have g2 : (w.fds.new (.prog p)).1.get prog = some (.prog p) := by rw [get_new_old (get_lt hf hp)]; exact hp
      have g3 : (w.fds.new (.prog p)).1.get cur = some (.prog q) := by rw [get_new_old (get_lt hf h2)]; exact h2
      have bad : ((⟨(w.fds.new (.prog p)).1.close (w.fds.new (.prog p)).2, w.kern⟩ : World Kern), Handle.emulated cg cur t 2, false) = (w', h', ok) →
          (ok = false → h' = .emulated cg cur t 2 ∧ w'.fds.open_ = w.fds.open_ ∧ w'.kern = w.kern) ∧ (ok = true → Updated w w' c t p ⟨q, none⟩ (.emulated cg cur t 2) h') ∧
          FWf w'.fds ∧ KWf w'.kern ∧ w.fds.next ≤ w'.fds.next := by
        intro hx
        rw [close_new hf] at hx
        cases hx
        exact ⟨fun _ => ⟨rfl, rfl, rfl⟩, (fun h => nomatch h), next_wf hf (Nat.le_succ _), hk, Nat.le_succ _⟩
      unfold rawAttach at hr
      simp only [g1, g2, g3] at hr
      cases ha : e.attachFails with
      | true =>
        rw [ha] at hr
        simp only [if_true] at hr
        rcases hpa : e.haveProgAttach with y | ⟨⟩ <;> (rw [hpa] at hr; exact bad hr)
      | false =>
        rw [ha] at hr
        simp only [Bool.false_eq_true, if_false] at hr
        cases hat : hookAttach (w.kern.hook c t) ⟨p, none⟩ (2 ||| 4) (some q) with
        | none =>
          have : linux.attach w.kern c t p (2 ||| 4) (some q) = none := by simp only [linux, hat]; rfl
          rw [this] at hr
          rcases hpa : e.haveProgAttach with y | ⟨⟩ <;> (rw [hpa] at hr; exact bad hr)
        | some hk' =>
          have : linux.attach w.kern c t p (2 ||| 4) (some q) = some (w.kern.set c t hk') := by simp only [linux, hat]; rfl
          rw [this] at hr
          simp only at hr
          cases hr
          obtain ⟨rfl, h6⟩ := attach_replace (hk.nodup c t) h4 h3 hk' hat
          have hlt1 := get_lt hf h1
          have hlt2 := get_lt hf h2
          refine ⟨(fun h => nomatch h), fun _ => ⟨?_, ?_, ?_, ?_, ?_, ?_, ?_⟩, close_wf hf1 _, ?_, Nat.le_succ _⟩
          · refine .emulated _ _ _ _ _ ?_ ?_ ?_ ?_
            · rw [get_close (fun hx => hne hx.symm)]; exact g1
            · rw [get_close (by show w.fds.next ≠ cur; omega)]; exact get_new_self ..
            · rw [set_self]; exact List.mem_map.mpr ⟨_, h3, by simp⟩
            · rw [set_self]
          · rw [set_self]
          · intro c' t'
            by_cases hx : c' = c ∧ t' = t
            · obtain ⟨rfl, rfl⟩ := hx
              rw [set_self, h4]
            · rw [set_other _ _ hx]
          · intro c' t' hx
            rw [set_other _ _ hx]
          · simp only [Fds.new, Fds.close, List.filter_filter, owned]
            rw [List.filter_cons, if_neg (by simp)]
            apply List.filter_congr
            intro y hy
            have := hf.fresh y hy
            have hyn : (y.1 == w.fds.next) = false := by simpa using (by omega : y.1 ≠ w.fds.next)
            simp only [List.contains_cons, List.contains_nil, Bool.or_false, Bool.not_or, hyn, Bool.not_false, Bool.true_and, bne, Bool.and_comm]
          · intro fd hfd hno
            rw [get_close (fun hx => hno (by rw [hx]; simp [owned])), get_new_old hfd]
          · intro fd hfd
            simp only [owned, List.mem_cons, List.mem_nil_iff, or_false] at hfd ⊢
            rcases hfd with rfl | rfl
            · exact .inr (Nat.le_refl _)
            · exact .inl (.inr rfl)
          · refine kern_map hk rfl ?_ (fun c' t' e => if c' = c ∧ t' = t then (if e = ⟨q, none⟩ then ⟨p, none⟩ else e) else e) ?_ ?_ ?_
            · intro c' t'
              by_cases hx : c' = c ∧ t' = t
              · obtain ⟨rfl, rfl⟩ := hx
                rw [set_self, h4]
              · rw [set_other _ _ hx]
            · intro c' t'
              by_cases hx : c' = c ∧ t' = t
              · obtain ⟨rfl, rfl⟩ := hx
                rw [set_self]; simp
              · rw [set_other _ _ hx]
                simp only [if_neg hx, List.map_id']
            · intro c' t' a
              split
              · split
                · rename_i h; rw [h]
                · rfl
              · rfl
            · intro c' t' a ha' b hb' hab
              by_cases hx : c' = c ∧ t' = t
              · obtain ⟨rfl, rfl⟩ := hx
                simp only [and_self, if_true] at hab
                by_cases ha1 : a = ⟨q, none⟩ <;> by_cases hb1 : b = ⟨q, none⟩
                · rw [ha1, hb1]
                · rw [if_pos ha1, if_neg hb1] at hab
                  rcases h6 with h6 | h6
                  · rw [ha1, ← hab, h6]
                  · exact absurd (hab ▸ hb') h6
                · rw [if_neg ha1, if_pos hb1] at hab
                  rcases h6 with h6 | h6
                  · rw [hb1, hab, h6]
                  · exact absurd (hab ▸ ha') h6
                · rw [if_neg ha1, if_neg hb1] at hab
                  exact hab
              · simp only [if_neg hx] at hab
                exact hab

/-- **C86**: nothing else makes Update fail. -/
theorem update_succeeds (e : Env) (w : World Kern) (hf : FWf w.fds) (hk : KWf w.kern) (h : Handle) (c t : Nat) (x : Ent) (hh : Holds w.fds w.kern h c t x)
    (prog p : Nat) (hp : w.fds.get prog = some (.prog p)) (hd : e.dupFails = false) (hl : e.linkFails = false) (ha : e.attachFails = false)
    (h1 : p = x.prog ∨ ⟨p, none⟩ ∉ (w.kern.hook c t).ents) (h2 : (w.kern.hook c t).ents.length < 64) : (update linux e w h prog).2.2 = true := by
  cases hh with
  | link fd l _ _ q g1 g2 =>
    unfold update
    simp only [g1, hp, hl, Bool.false_eq_true, if_false, linux]
  | emulated cg cur _ _ q g1 g2 g3 g4 =>
    have k1 : (w.fds.new (.prog p)).1.get cg = some (.cgroup c) := by rw [get_new_old (get_lt hf g1)]; exact g1
    have k2 : (w.fds.new (.prog p)).1.get prog = some (.prog p) := by rw [get_new_old (get_lt hf hp)]; exact hp
    have k3 : (w.fds.new (.prog p)).1.get cur = some (.prog q) := by rw [get_new_old (get_lt hf g2)]; exact g2
    have hat : ∃ h', hookAttach (w.kern.hook c t) ⟨p, none⟩ (2 ||| 4) (some q) = some h' := by
      unfold hookAttach
      rw [if_neg (by decide), if_neg (by rintro ⟨_, b⟩; exact b g4), if_neg (by omega), if_pos (by decide), if_neg]
      · simp only [replaceFirst_map (hk.nodup c t) ⟨p, none⟩ g3, Option.map_some]
        exact ⟨_, rfl⟩
      · rintro ⟨_, a, b⟩
        rw [List.any_eq_true] at a
        obtain ⟨y, hy, hf⟩ := a
        have := (like p y).mp hf
        subst this
        rcases h1 with h1 | h1
        · exact b (by rw [h1])
        · exact h1 hy
    obtain ⟨h', hat⟩ := hat
    have : linux.attach w.kern c t p (2 ||| 4) (some q) = some (w.kern.set c t h') := by simp only [linux, hat]; rfl
    unfold update clone rawAttach
    simp only [hp, hd, ha, Bool.false_eq_true, if_false, show (2 &&& 2 > 0) by decide, if_true, k1, k2, k3, this]

/-! ## Histories -/

/-- The process with its open links, its own descriptors and what others have attached. -/
structure Sys where
  w : World Kern
  links : List Handle
  mine : Nat → Prop
  oth : Nat → Nat → Ent → Prop

/-- What can happen: the three operations, and anything by others and with the process's own descriptors that leaves the links' entries and descriptors alone. -/
inductive Step : Sys → Sys → Prop
  | attach (S : Sys) (e : Env) (t prog p : Nat) (w' : World Kern) (h : Handle) : Modern e → S.w.fds.get prog = some (.prog p) → attachCgroup linux e S.w t prog = (w', .ok h) →
      Step S ⟨w', h :: S.links, S.mine, S.oth⟩
  | attachFails (S : Sys) (e : Env) (t prog p : Nat) (w' : World Kern) (x : Err) : Modern e → S.w.fds.get prog = some (.prog p) → attachCgroup linux e S.w t prog = (w', .error x) →
      Step S ⟨w', S.links, S.mine, S.oth⟩
  | update (S : Sys) (e : Env) (a b : List Handle) (h h' : Handle) (prog p : Nat) (w' : World Kern) (ok : Bool) : S.links = a ++ h :: b → S.w.fds.get prog = some (.prog p) →
      update linux e S.w h prog = (w', h', ok) → Step S ⟨w', a ++ h' :: b, S.mine, S.oth⟩
  | close (S : Sys) (e : Env) (a b : List Handle) (h : Handle) : S.links = a ++ h :: b → e.detachFails = false → Step S ⟨(close linux e S.w h).1, a ++ b, S.mine, S.oth⟩
  | others (S : Sys) (k : Kern) (oth : Nat → Nat → Ent → Prop) : KWf k → (∀ h ∈ S.links, ∀ c t x, Holds S.w.fds S.w.kern h c t x → Holds S.w.fds k h c t x) →
      (∀ c t x, x ∈ (k.hook c t).ents → oth c t x ∨ ∃ h ∈ S.links, Holds S.w.fds S.w.kern h c t x) → Step S ⟨⟨S.w.fds, k⟩, S.links, S.mine, oth⟩
  | process (S : Sys) (f : Fds) (mine : Nat → Prop) : FWf f → (∀ h ∈ S.links, ∀ fd ∈ owned h, f.get fd = S.w.fds.get fd) →
      (∀ y ∈ f.open_, mine y.1 ∨ ∃ h ∈ S.links, y.1 ∈ owned h) → Step S ⟨⟨f, S.w.kern⟩, S.links, mine, S.oth⟩

/-- Any number of steps. -/
inductive Steps : Sys → Sys → Prop
  | refl (S : Sys) : Steps S S
  | step {A B C : Sys} : Steps A B → Step B C → Steps A C

/-- A link and its entry. -/
structure Rec where
  h : Handle
  c : Nat
  t : Nat
  x : Ent

/-- The entry. -/
def Rec.key (r : Rec) : Nat × Nat × Ent := (r.c, r.t, r.x)

/-- Each link holds an entry and descriptors of its own, and there are no others than those of the process and of others. -/
structure Inv (S : Sys) : Prop where
  fwf : FWf S.w.fds
  kwf : KWf S.w.kern
  recs : ∃ rs : List Rec, rs.map (·.h) = S.links ∧ (∀ r ∈ rs, Holds S.w.fds S.w.kern r.h r.c r.t r.x) ∧ (rs.map Rec.key).Nodup ∧ (rs.flatMap (fun r => owned r.h)).Nodup ∧
    (∀ c t x, x ∈ (S.w.kern.hook c t).ents → S.oth c t x ∨ ∃ r ∈ rs, r.key = (c, t, x)) ∧ (∀ y ∈ S.w.fds.open_, S.mine y.1 ∨ ∃ r ∈ rs, y.1 ∈ owned r.h)

theorem owned_get {f : Fds} {k : Kern} {h : Handle} {c t : Nat} {x : Ent} (hh : Holds f k h c t x) : ∀ fd ∈ owned h, ∃ o, f.get fd = some o := by
  intro fd hfd
  cases hh with
  | link _ l _ _ p h1 h2 => simp only [owned, List.mem_singleton] at hfd; subst hfd; exact ⟨_, h1⟩
  | emulated cg cur _ _ p h1 h2 h3 h4 =>
    simp only [owned, List.mem_cons, List.mem_nil_iff, or_false] at hfd
    rcases hfd with rfl | rfl
    · exact ⟨_, h2⟩
    · exact ⟨_, h1⟩

theorem holds_mem {f : Fds} {k : Kern} {h : Handle} {c t : Nat} {x : Ent} (hh : Holds f k h c t x) : x ∈ (k.hook c t).ents := by
  cases hh with
  | link _ l _ _ p h1 h2 => exact h2
  | emulated cg cur _ _ p h1 h2 h3 h4 => exact h3

theorem holds_flags {f : Fds} {k : Kern} (hk : KWf k) {h : Handle} {c t : Nat} {x : Ent} (hh : Holds f k h c t x) : (k.hook c t).flags = 2 := by
  cases hh with
  | link _ l _ _ p h1 h2 => exact hk.multi c t _ h2 (by simp)
  | emulated cg cur _ _ p h1 h2 h3 h4 => exact h4

theorem holds_mono {f f' : Fds} {k k' : Kern} {h : Handle} {c t : Nat} {x : Ent} (hh : Holds f k h c t x) (hg : ∀ fd ∈ owned h, f'.get fd = f.get fd) (hx : x ∈ (k'.hook c t).ents)
    (hfl : (k'.hook c t).flags = (k.hook c t).flags) : Holds f' k' h c t x := by
  cases hh with
  | link _ l _ _ p h1 h2 => exact .link _ _ _ _ _ (by rw [hg _ (by simp [owned])]; exact h1) hx
  | emulated cg cur _ _ p h1 h2 h3 h4 =>
    exact .emulated _ _ _ _ _ (by rw [hg _ (by simp [owned])]; exact h1) (by rw [hg _ (by simp [owned])]; exact h2) hx (by rw [hfl]; exact h4)

/-- A link holds one entry. -/
theorem holds_unique {f : Fds} {k : Kern} (hk : KWf k) {h : Handle} {c t c' t' : Nat} {x x' : Ent} (h1 : Holds f k h c t x) (h2 : Holds f k h c' t' x') : c = c' ∧ t = t' ∧ x = x' := by
  cases h1 with
  | link _ l _ _ p g1 g2 =>
    cases h2 with
    | link _ l' _ _ p' g1' g2' =>
      rw [g1] at g1'
      cases g1'
      exact hk.unique _ _ _ _ _ _ l g2 g2' rfl rfl
  | emulated cg cur _ _ p g1 g2 g3 g4 =>
    cases h2 with
    | emulated _ _ _ _ p' g1' g2' g3' g4' =>
      rw [g1] at g1'
      rw [g2] at g2'
      cases g1'
      cases g2'
      exact ⟨rfl, rfl, rfl⟩

theorem owned_nodup {f : Fds} {k : Kern} {h : Handle} {c t : Nat} {x : Ent} (hh : Holds f k h c t x) : (owned h).Nodup := by
  cases hh with
  | link _ l _ _ p h1 h2 => simp [owned]
  | emulated cg cur _ _ p h1 h2 h3 h4 =>
    have : cur ≠ cg := by rintro rfl; rw [h1] at h2; cases h2
    simp [owned, this]

theorem get_of_mem {f : Fds} (hw : FWf f) {fd : Nat} (h : fd ∈ f.open_.map (·.1)) : fd < f.next := by
  obtain ⟨y, hy, rfl⟩ := List.mem_map.mp h
  exact hw.fresh y hy

theorem nodup_map_inj {α β : Type} {f : α → β} {l : List α} (hd : (l.map f).Nodup) {a b : α} (ha : a ∈ l) (hb : b ∈ l) (h : f a = f b) : a = b := by
  induction l with
  | nil => cases ha
  | cons x r ih =>
    rw [List.map_cons, List.nodup_cons] at hd
    rcases List.mem_cons.mp ha with rfl | ha' <;> rcases List.mem_cons.mp hb with rfl | hb'
    · rfl
    · exact absurd (h ▸ List.mem_map_of_mem hb') hd.1
    · exact absurd (h ▸ List.mem_map_of_mem ha') hd.1
    · exact ih hd.2 ha' hb'

theorem step_inv {S S' : Sys} (hi : Inv S) (hs : Step S S') : Inv S' := by
  obtain ⟨hf, hk, rs, r1, r2, r3, r4, r5, r6⟩ := hi
  have rlt : ∀ r ∈ rs, ∀ fd ∈ owned r.h, fd < S.w.fds.next := by
    intro r hr fd hfd
    obtain ⟨o, ho⟩ := owned_get (r2 r hr) fd hfd
    exact get_lt hf ho
  cases hs with
  | attach e t prog p w' h hm hp ha =>
    obtain ⟨_, h2, h3, h4, h5⟩ := attach_exact_partial e S.w w' hm hf hk t prog p hp _ ha
    obtain ⟨c, l, hc, hat⟩ := h2 h rfl
    have hmem : ∀ c' t' x, x ∈ (S.w.kern.hook c' t').ents → x ∈ (w'.kern.hook c' t').ents := by
      intro c' t' x hx
      by_cases hct : c' = c ∧ t' = t
      · obtain ⟨rfl, rfl⟩ := hct
        rw [hat.last]; exact List.mem_append_left _ hx
      · rw [hat.others _ _ hct]; exact hx
    have hheld : ∀ r ∈ rs, Holds w'.fds w'.kern r.h r.c r.t r.x := by
      intro r hr
      have hh := r2 r hr
      have hg : ∀ fd ∈ owned r.h, w'.fds.get fd = S.w.fds.get fd := fun fd hfd => hat.get fd (rlt r hr fd hfd)
      by_cases hct : r.c = c ∧ r.t = t
      · refine holds_mono hh hg (hmem _ _ _ (holds_mem hh)) ?_
        rw [holds_flags hk hh, hct.1, hct.2]
        exact holds_flags h4 hat.holds
      · exact holds_mono hh hg (hmem _ _ _ (holds_mem hh)) (by rw [hat.others _ _ hct])
    have hnew : ∀ fd ∈ owned h, S.w.fds.next ≤ fd ∨ fd ∉ S.w.fds.open_.map (·.1) := by
      intro fd hfd
      right
      intro hm2
      have hnd := h3.nodup
      rw [hat.fds] at hnd
      rw [List.nodup_append] at hnd
      exact hnd.2.2 fd hfd fd hm2 rfl
    refine ⟨h3, h4, ⟨h, c, t, ⟨p, l⟩⟩ :: rs, by simp [r1], ?_, ?_, ?_, ?_, ?_⟩
    · intro r hr
      rcases List.mem_cons.mp hr with rfl | hr
      · exact hat.holds
      · exact hheld r hr
    · rw [List.map_cons, List.nodup_cons]
      refine ⟨?_, r3⟩
      intro hm2
      obtain ⟨r, hr, he⟩ := List.mem_map.mp hm2
      have hx := holds_mem (r2 r hr)
      simp only [Rec.key, Prod.mk.injEq] at he
      rw [he.1, he.2.1, he.2.2] at hx
      have hnd := h4.nodup c t
      rw [hat.last, List.nodup_append] at hnd
      exact hnd.2.2 _ hx _ (List.mem_singleton.mpr rfl) rfl
    · rw [List.flatMap_cons, List.nodup_append]
      refine ⟨owned_nodup hat.holds, r4, ?_⟩
      intro a ha' b hb hab
      subst hab
      obtain ⟨r, hr, hfd⟩ := List.mem_flatMap.mp hb
      obtain ⟨o, ho⟩ := owned_get (r2 r hr) a hfd
      rcases hnew a ha' with hn | hn
      · have := get_lt hf ho; omega
      · exact hn (List.mem_map_of_mem (get_mem ho))
    · intro c' t' x hx
      by_cases hct : c' = c ∧ t' = t
      · obtain ⟨rfl, rfl⟩ := hct
        rw [hat.last] at hx
        rcases List.mem_append.mp hx with hx | hx
        · rcases r5 _ _ _ hx with h | ⟨r, hr, he⟩
          · exact .inl h
          · exact .inr ⟨r, List.mem_cons_of_mem _ hr, he⟩
        · rw [List.mem_singleton.mp hx]
          exact .inr ⟨_, List.mem_cons_self .., rfl⟩
      · rw [hat.others _ _ hct] at hx
        rcases r5 _ _ _ hx with h | ⟨r, hr, he⟩
        · exact .inl h
        · exact .inr ⟨r, List.mem_cons_of_mem _ hr, he⟩
    · intro y hy
      have : y.1 ∈ w'.fds.open_.map (·.1) := List.mem_map_of_mem hy
      rw [hat.fds] at this
      rcases List.mem_append.mp this with h | h
      · exact .inr ⟨_, List.mem_cons_self .., h⟩
      · obtain ⟨z, hz, hze⟩ := List.mem_map.mp h
        rw [← hze]
        rcases r6 z hz with h | ⟨r, hr, he⟩
        · exact .inl h
        · exact .inr ⟨r, List.mem_cons_of_mem _ hr, he⟩
  | attachFails e t prog p w' x hm hp ha =>
    obtain ⟨h1, _, h3, h4, h5⟩ := attach_exact_partial e S.w w' hm hf hk t prog p hp _ ha
    obtain ⟨e1, e2⟩ := h1 x rfl
    have hg : ∀ fd, w'.fds.get fd = S.w.fds.get fd := by intro fd; unfold Fds.get; rw [e1]
    refine ⟨h3, h4, rs, r1, ?_, r3, r4, ?_, ?_⟩
    · intro r hr
      exact holds_mono (r2 r hr) (fun fd _ => hg fd) (by rw [e2]; exact holds_mem (r2 r hr)) (by rw [e2])
    · intro c' t' y hy
      rw [show (⟨w', S.links, S.mine, S.oth⟩ : Sys).w.kern = S.w.kern from e2] at hy
      exact r5 _ _ _ hy
    · intro y hy
      rw [show (⟨w', S.links, S.mine, S.oth⟩ : Sys).w.fds.open_ = S.w.fds.open_ from e1] at hy
      exact r6 y hy
  | update e a b h h' prog p w' ok hl hp hu =>
    rw [hl] at r1
    obtain ⟨ra, rb', rfl, q1, q2⟩ := List.map_eq_append_iff.mp r1
    obtain ⟨r, rb, rfl, q3, q4⟩ := List.map_eq_cons_iff.mp q2
    have hr : r ∈ ra ++ r :: rb := by simp
    subst q3
    obtain ⟨h1, h2, h3, h4, h5⟩ := update_exact e S.w w' hf hk r.h h' r.c r.t r.x (r2 r hr) prog p hp ok hu
    cases ok with
    | false =>
      obtain ⟨rfl, e1, e2⟩ := h1 rfl
      have hg : ∀ fd, w'.fds.get fd = S.w.fds.get fd := by intro fd; unfold Fds.get; rw [e1]
      refine ⟨h3, h4, ra ++ r :: rb, by simp [q1, q4], ?_, r3, r4, ?_, ?_⟩
      · intro r hr
        exact holds_mono (r2 r hr) (fun fd _ => hg fd) (by rw [e2]; exact holds_mem (r2 r hr)) (by rw [e2])
      · intro c' t' y hy
        have hy : y ∈ (w'.kern.hook c' t').ents := hy
        rw [e2] at hy
        exact r5 _ _ _ hy
      · intro y hy
        have hy : y ∈ w'.fds.open_ := hy
        rw [e1] at hy
        exact r6 y hy
    | true =>
      have hup := h2 rfl
      -- the others are other entries with other descriptors
      have hother : ∀ z, z ∈ ra ∨ z ∈ rb → z.key ≠ r.key ∧ (∀ fd ∈ owned z.h, fd ∉ owned r.h) ∧ z ∈ ra ++ r :: rb := by
        intro z hz
        have hzm : z ∈ ra ++ r :: rb := by rcases hz with hz | hz <;> simp [hz]
        refine ⟨?_, ?_, hzm⟩
        · rw [List.map_append, List.map_cons, List.nodup_append] at r3
          obtain ⟨_, n2, n3⟩ := r3
          rw [List.nodup_cons] at n2
          rcases hz with hz | hz
          · exact n3 _ (List.mem_map_of_mem hz) _ (List.mem_cons_self ..)
          · intro he; exact n2.1 (he ▸ List.mem_map_of_mem hz)
        · intro fd h6 h7
          rw [List.flatMap_append, List.flatMap_cons, List.nodup_append] at r4
          obtain ⟨_, n2, n3⟩ := r4
          rw [List.nodup_append] at n2
          rcases hz with hz | hz
          · exact n3 fd (List.mem_flatMap.mpr ⟨z, hz, h6⟩) fd (List.mem_append_left _ h7) rfl
          · exact n2.2.2 fd h7 fd (List.mem_flatMap.mpr ⟨z, hz, h6⟩) rfl
      have hkeep : ∀ c' t' x, (c', t', x) ≠ r.key → x ∈ (S.w.kern.hook c' t').ents → x ∈ (w'.kern.hook c' t').ents := by
        intro c' t' x hne hx
        by_cases hct : c' = r.c ∧ t' = r.t
        · obtain ⟨rfl, rfl⟩ := hct
          rw [hup.ents]
          refine List.mem_map.mpr ⟨x, hx, ?_⟩
          rw [if_neg]
          rintro rfl
          exact hne rfl
        · rw [hup.others _ _ hct]; exact hx
      have hkey : ∀ z, z ∈ ra ∨ z ∈ rb → z.key ≠ (r.c, r.t, ⟨p, r.x.link⟩) := by
        intro z hz he
        obtain ⟨hn1, _, hzm⟩ := hother z hz
        simp only [Rec.key, Prod.mk.injEq] at he
        have hzx := holds_mem (r2 z hzm)
        rw [he.1, he.2.1] at hzx
        have hrx := holds_mem (r2 r hr)
        have hnd := h4.nodup r.c r.t
        rw [hup.ents] at hnd
        have : z.x = r.x := by
          refine nodup_map_inj hnd hzx hrx ?_
          rw [if_pos rfl]
          by_cases hzr : z.x = r.x
          · rw [if_pos hzr]
          · rw [if_neg hzr]; exact he.2.2
        apply hn1
        simp only [Rec.key, he.1, he.2.1, this]
      refine ⟨h3, h4, ra ++ ⟨h', r.c, r.t, ⟨p, r.x.link⟩⟩ :: rb, by simp [q1, q4], ?_, ?_, ?_, ?_, ?_⟩
      · intro z hz
        have : z = ⟨h', r.c, r.t, ⟨p, r.x.link⟩⟩ ∨ (z ∈ ra ∨ z ∈ rb) := by
          simp only [List.mem_append, List.mem_cons] at hz
          rcases hz with hz | hz | hz
          · exact .inr (.inl hz)
          · exact .inl hz
          · exact .inr (.inr hz)
        rcases this with rfl | hz
        · exact hup.holds
        · obtain ⟨n1, n2, hzm⟩ := hother z hz
          exact holds_mono (r2 z hzm) (fun fd hfd => hup.get fd (rlt z hzm fd hfd) (n2 fd hfd)) (hkeep _ _ _ n1 (holds_mem (r2 z hzm))) (hup.flags _ _)
      · rw [List.map_append, List.map_cons, List.nodup_append, List.nodup_cons]
        rw [List.map_append, List.map_cons, List.nodup_append, List.nodup_cons] at r3
        refine ⟨r3.1, ⟨?_, r3.2.1.2⟩, ?_⟩
        · intro hm2
          obtain ⟨z, hz, he⟩ := List.mem_map.mp hm2
          exact hkey z (.inr hz) he
        · intro k1 hk1 k2 hk2
          rcases List.mem_cons.mp hk2 with rfl | hk2
          · obtain ⟨z, hz, rfl⟩ := List.mem_map.mp hk1
            exact hkey z (.inl hz)
          · exact r3.2.2 k1 hk1 k2 (List.mem_cons_of_mem _ hk2)
      · have hdis : ∀ z, z ∈ ra ∨ z ∈ rb → ∀ fd ∈ owned z.h, fd ∉ owned h' := by
          intro z hz fd hfd hfd'
          obtain ⟨_, n2, hzm⟩ := hother z hz
          rcases hup.new fd hfd' with hx | hx
          · exact n2 fd hfd hx
          · have := rlt z hzm fd hfd; omega
        rw [List.flatMap_append, List.flatMap_cons, List.nodup_append, List.nodup_append]
        rw [List.flatMap_append, List.flatMap_cons, List.nodup_append, List.nodup_append] at r4
        refine ⟨r4.1, ⟨owned_nodup hup.holds, r4.2.1.2.1, ?_⟩, ?_⟩
        · intro u hu' v hv huv
          subst huv
          obtain ⟨z, hz, hfd⟩ := List.mem_flatMap.mp hv
          exact hdis z (.inr hz) u hfd hu'
        · intro u hu' v hv huv
          subst huv
          obtain ⟨z, hz, hfd⟩ := List.mem_flatMap.mp hu'
          rcases List.mem_append.mp hv with hv | hv
          · exact hdis z (.inl hz) u hfd hv
          · exact r4.2.2 u hu' u (List.mem_append_right _ hv) rfl
      · intro c' t' x hx
        have hx : x ∈ (w'.kern.hook c' t').ents := hx
        have old : ∀ y, y ∈ (S.w.kern.hook c' t').ents → (c', t', y) ≠ r.key → S.oth c' t' y ∨ ∃ z ∈ ra ++ ⟨h', r.c, r.t, ⟨p, r.x.link⟩⟩ :: rb, z.key = (c', t', y) := by
          intro y hy hne
          rcases r5 _ _ _ hy with h | ⟨z, hz, he⟩
          · exact .inl h
          · right
            simp only [List.mem_append, List.mem_cons] at hz ⊢
            rcases hz with hz | rfl | hz
            · exact ⟨z, .inl hz, he⟩
            · exact absurd he.symm hne
            · exact ⟨z, .inr (.inr hz), he⟩
        by_cases hct : c' = r.c ∧ t' = r.t
        · obtain ⟨rfl, rfl⟩ := hct
          rw [hup.ents] at hx
          obtain ⟨y, hy, rfl⟩ := List.mem_map.mp hx
          by_cases hyr : y = r.x
          · rw [if_pos hyr]
            exact .inr ⟨_, List.mem_append_right _ (List.mem_cons_self ..), rfl⟩
          · rw [if_neg hyr]
            exact old y hy (by intro he; simp only [Rec.key, Prod.mk.injEq, true_and] at he; exact hyr he)
        · rw [hup.others _ _ hct] at hx
          exact old x hx (by intro he; simp only [Rec.key, Prod.mk.injEq] at he; exact hct ⟨he.1, he.2.1⟩)
      · intro y hy
        have hy : y ∈ w'.fds.open_ := hy
        by_cases hyo : y.1 ∈ owned h'
        · exact .inr ⟨_, List.mem_append_right _ (List.mem_cons_self ..), hyo⟩
        · have : y ∈ w'.fds.open_.filter (fun y => !(owned h').contains y.1) := by
            rw [List.mem_filter]
            exact ⟨hy, by simpa using hyo⟩
          rw [hup.fds, List.mem_filter] at this
          obtain ⟨hy1, hy2⟩ := this
          rcases r6 y hy1 with h | ⟨z, hz, he⟩
          · exact .inl h
          · right
            simp only [List.mem_append, List.mem_cons] at hz ⊢
            rcases hz with hz | rfl | hz
            · exact ⟨z, .inl hz, he⟩
            · simp only [Bool.not_eq_true', List.contains_eq_mem, decide_eq_false_iff_not] at hy2
              exact absurd he hy2
            · exact ⟨z, .inr (.inr hz), he⟩
  | close e a b h hl hd =>
    rw [hl] at r1
    obtain ⟨ra, rb', rfl, q1, q2⟩ := List.map_eq_append_iff.mp r1
    obtain ⟨r, rb, rfl, q3, q4⟩ := List.map_eq_cons_iff.mp q2
    have hr : r ∈ ra ++ r :: rb := by simp
    subst q3
    obtain ⟨h1, _, _, h3, h4⟩ := close_exact e S.w hf hk r.h r.c r.t r.x (r2 r hr)
    obtain ⟨_, hdet⟩ := h1 hd
    have hsub : (ra ++ rb).Sublist (ra ++ r :: rb) := List.Sublist.append (List.Sublist.refl _) (List.sublist_cons_self ..)
    have hother : ∀ z, z ∈ ra ++ rb → z.key ≠ r.key ∧ (∀ fd ∈ owned z.h, fd ∉ owned r.h) ∧ z ∈ ra ++ r :: rb := by
      intro z hz
      refine ⟨?_, ?_, hsub.subset hz⟩
      · rw [List.map_append, List.map_cons, List.nodup_append] at r3
        obtain ⟨_, n2, n3⟩ := r3
        rw [List.nodup_cons] at n2
        rcases List.mem_append.mp hz with hz | hz
        · exact n3 _ (List.mem_map_of_mem hz) _ (List.mem_cons_self ..)
        · intro he; exact n2.1 (he ▸ List.mem_map_of_mem hz)
      · intro fd h6 h7
        rw [List.flatMap_append, List.flatMap_cons, List.nodup_append] at r4
        obtain ⟨_, n2, n3⟩ := r4
        rw [List.nodup_append] at n2
        rcases List.mem_append.mp hz with hz | hz
        · exact n3 fd (List.mem_flatMap.mpr ⟨z, hz, h6⟩) fd (List.mem_append_left _ h7) rfl
        · exact n2.2.2 fd h7 fd (List.mem_flatMap.mpr ⟨z, hz, h6⟩) rfl
    have hget : ∀ fd, fd ∉ owned r.h → (close linux e S.w r.h).1.fds.get fd = S.w.fds.get fd := by
      intro fd hno
      unfold Fds.get
      rw [hdet.fds, List.find?_filter]
      congr 2
      funext y
      by_cases hy : y.1 = fd
      · simp [hy, hno]
      · simp [hy]
    refine ⟨h3, h4, ra ++ rb, by simp [q1, q4], ?_, (hsub.map _).nodup r3, ?_, ?_, ?_⟩
    · intro z hz
      obtain ⟨n1, n2, hzm⟩ := hother z hz
      refine holds_mono (r2 z hzm) (fun fd hfd => hget fd (n2 fd hfd)) ?_ (hdet.flags _ _)
      show z.x ∈ ((close linux e S.w r.h).1.kern.hook z.c z.t).ents
      have hzx := holds_mem (r2 z hzm)
      by_cases hct : z.c = r.c ∧ z.t = r.t
      · rw [hct.1, hct.2, hdet.ents, List.mem_filter]
        refine ⟨by rw [← hct.1, ← hct.2]; exact hzx, ?_⟩
        have : z.x ≠ r.x := by
          intro he; apply n1; simp only [Rec.key, hct.1, hct.2, he]
        simpa using this
      · rw [hdet.others _ _ hct]; exact hzx
    · rw [List.flatMap_append, List.flatMap_cons, List.nodup_append, List.nodup_append] at r4
      rw [List.flatMap_append, List.nodup_append]
      exact ⟨r4.1, r4.2.1.2.1, fun u hu v hv => r4.2.2 u hu v (List.mem_append_right _ hv)⟩
    · intro c' t' x hx
      have hx : x ∈ ((close linux e S.w r.h).1.kern.hook c' t').ents := hx
      have old : x ∈ (S.w.kern.hook c' t').ents → (c', t', x) ≠ r.key → S.oth c' t' x ∨ ∃ z ∈ ra ++ rb, z.key = (c', t', x) := by
        intro hy hne
        rcases r5 _ _ _ hy with h | ⟨z, hz, he⟩
        · exact .inl h
        · right
          simp only [List.mem_append, List.mem_cons] at hz ⊢
          rcases hz with hz | rfl | hz
          · exact ⟨z, .inl hz, he⟩
          · exact absurd he.symm hne
          · exact ⟨z, .inr hz, he⟩
      by_cases hct : c' = r.c ∧ t' = r.t
      · obtain ⟨rfl, rfl⟩ := hct
        rw [hdet.ents, List.mem_filter] at hx
        refine old hx.1 ?_
        intro he
        simp only [Rec.key, Prod.mk.injEq, true_and] at he
        rw [he] at hx
        simp at hx
      · rw [hdet.others _ _ hct] at hx
        exact old hx (by intro he; simp only [Rec.key, Prod.mk.injEq] at he; exact hct ⟨he.1, he.2.1⟩)
    · intro y hy
      have hy : y ∈ (close linux e S.w r.h).1.fds.open_ := hy
      rw [hdet.fds, List.mem_filter] at hy
      rcases r6 y hy.1 with h | ⟨z, hz, he⟩
      · exact .inl h
      · right
        simp only [List.mem_append, List.mem_cons] at hz ⊢
        rcases hz with hz | rfl | hz
        · exact ⟨z, .inl hz, he⟩
        · have hy2 := hy.2
          simp only [Bool.not_eq_true', List.contains_eq_mem, decide_eq_false_iff_not] at hy2
          exact absurd he hy2
        · exact ⟨z, .inr hz, he⟩
  | others k oth hkw hh ho =>
    have hin : ∀ r ∈ rs, r.h ∈ S.links := fun r hr => r1 ▸ List.mem_map_of_mem hr
    refine ⟨hf, hkw, rs, r1, fun r hr => hh _ (hin r hr) _ _ _ (r2 r hr), r3, r4, ?_, r6⟩
    intro c' t' x hx
    rcases ho c' t' x hx with h | ⟨h, hm, hx⟩
    · exact .inl h
    · right
      rw [← r1] at hm
      obtain ⟨r, hr, rfl⟩ := List.mem_map.mp hm
      obtain ⟨e1, e2, e3⟩ := holds_unique hk (r2 r hr) hx
      exact ⟨r, hr, by simp only [Rec.key, e1, e2, e3]⟩
  | process f mine hfw hg hm =>
    have hin : ∀ r ∈ rs, r.h ∈ S.links := fun r hr => r1 ▸ List.mem_map_of_mem hr
    refine ⟨hfw, hk, rs, r1, fun r hr => holds_mono (r2 r hr) (hg _ (hin r hr)) (holds_mem (r2 r hr)) rfl, r3, r4, r5, ?_⟩
    intro y hy
    rcases hm y hy with h | ⟨h, hm, hx⟩
    · exact .inl h
    · right
      rw [← r1] at hm
      obtain ⟨r, hr, rfl⟩ := List.mem_map.mp hm
      exact ⟨r, hr, hx⟩

/-- **C86**: after any history of attaching, updating and closing links, with others attaching and detaching in between: each open link has its own program attached, to its own entry and
by its own descriptors; nothing is attached and no descriptor is open besides what belongs to open links, to others and to the rest of the process. -/
theorem history (S S' : Sys) (hs : Steps S S') (h0 : S.links = []) (hf : FWf S.w.fds) (hk : KWf S.w.kern) (ho : ∀ c t x, x ∈ (S.w.kern.hook c t).ents → S.oth c t x) (hm : ∀ y ∈ S.w.fds.open_, S.mine y.1) :
    Inv S' := by
  have hi : Inv S := ⟨hf, hk, [], by simp [h0], by simp, by simp, by simp, fun c t x hx => .inl (ho c t x hx), fun y hy => .inl (hm y hy)⟩
  clear h0 hf hk ho hm
  induction hs with
  | refl => exact hi
  | step _ hstep ih => exact step_inv ih hstep

/-! ## What is false -/

/-- Linux before 5.5: programs can't be replaced. -/
def oldEnv : Env := ⟨some 0, .error .notSupported, .error .notSupported, .ok (), false, false, false, false⟩
/-- Linux since 5.7. -/
def newEnv : Env := ⟨some 0, .ok (), .ok (), .ok (), false, false, false, false⟩
/-- Linux 5.5. -/
def midEnv : Env := ⟨some 0, .error .notSupported, .ok (), .ok (), false, false, false, false⟩
/-- Two programs, nothing attached. -/
def start : World Kern := ⟨⟨[(4, .prog 11), (3, .prog 10)], 5⟩, ⟨fun _ _ => ⟨[], 0⟩, 1⟩⟩

/-- **C86, false before Linux 5.5**: a second AttachCgroup to the same hook silently takes the place of the first program, and closing the first link detaches the second one's program. -/
theorem override_counterexample :
    ∃ h1 h2, (attachCgroup linux oldEnv start 7 3).2 = .ok h1 ∧ (attachCgroup linux oldEnv (attachCgroup linux oldEnv start 7 3).1 7 4).2 = .ok h2 ∧
      ((attachCgroup linux oldEnv start 7 3).1.kern.hook 0 7).ents = [⟨10, none⟩] ∧
      ((attachCgroup linux oldEnv (attachCgroup linux oldEnv start 7 3).1 7 4).1.kern.hook 0 7).ents = [⟨11, none⟩] ∧
      (close linux oldEnv (attachCgroup linux oldEnv (attachCgroup linux oldEnv start 7 3).1 7 4).1 h1).2 = true ∧
      ((close linux oldEnv (attachCgroup linux oldEnv (attachCgroup linux oldEnv start 7 3).1 7 4).1 h1).1.kern.hook 0 7).ents = [] :=
  ⟨_, _, rfl, rfl, rfl, rfl, rfl, rfl⟩

/-! ## Not vacuous -/

theorem start_fwf : FWf start.fds := ⟨by intro x hx; simp [start] at hx; rcases hx with rfl | rfl <;> decide, by decide⟩

theorem start_kwf : KWf start.kern :=
  ⟨fun _ _ => List.nodup_nil, fun _ _ _ h => (by cases h), fun _ _ _ _ _ _ _ h => (by cases h), fun _ _ _ h => (by cases h)⟩

example : ∃ h, (attachCgroup linux newEnv start 7 3).2 = .ok h ∧ h = .link 6 ∧ ((attachCgroup linux newEnv start 7 3).1.kern.hook 0 7).ents = [⟨10, some 1⟩] ∧
    (attachCgroup linux newEnv start 7 3).1.fds.open_ = [(6, .link 1), (4, .prog 11), (3, .prog 10)] := ⟨_, rfl, rfl, rfl, rfl⟩

example : ∃ h w h', (attachCgroup linux midEnv start 7 3).2 = .ok h ∧ update linux midEnv (attachCgroup linux midEnv start 7 3).1 h 4 = (w, h', true) ∧
    (w.kern.hook 0 7).ents = [⟨11, none⟩] ∧ w.fds.open_ = [(7, .prog 11), (5, .cgroup 0), (4, .prog 11), (3, .prog 10)] ∧
    ((close linux midEnv w h').1.kern.hook 0 7).ents = [] ∧ (close linux midEnv w h').1.fds.open_ = start.fds.open_ := ⟨_, _, _, rfl, rfl, rfl, rfl, rfl, rfl⟩

example : Modern newEnv ∧ Modern midEnv := ⟨.inl (by intro h; cases h), .inr ⟨rfl, rfl⟩⟩

example : ∃ S', Steps ⟨start, [], fun fd => fd < 5, fun _ _ _ => False⟩ S' ∧ S'.links.length = 2 :=
  ⟨_, .step (.step (.refl _) (.attach _ midEnv 7 3 10 _ _ (.inr ⟨rfl, rfl⟩) rfl rfl)) (.attach _ newEnv 8 4 11 _ _ (.inl (by intro h; cases h)) rfl rfl), rfl⟩

/-- **C86**: if Close reports no error, the program is detached. -/
theorem close_ok (e : Env) (w : World Kern) (hf : FWf w.fds) (hk : KWf w.kern) (h : Handle) (c t : Nat) (x : Ent) (hh : Holds w.fds w.kern h c t x)
    (hok : (close linux e w h).2 = true) : Detached w (close linux e w h).1 c t x h := by
  cases hd : e.detachFails with
  | false => exact ((close_exact e w hf hk h c t x hh).1 hd).2
  | true =>
    cases hh with
    | link fd l _ _ p h1 h2 => exact ((close_exact { e with detachFails := false } w hf hk (.link fd) c t _ (.link fd l c t p h1 h2)).1 rfl).2
    | emulated cg cur _ _ p h1 h2 h3 h4 =>
      simp [close, rawDetach, hd] at hok

end Ebpf.Cgroup
