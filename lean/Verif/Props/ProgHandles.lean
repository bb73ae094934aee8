import Verif.Spec.ProgHandles
/-!
# C109: programs own their descriptors
-/
namespace Ebpf.ProgHandles
open Spec

variable {pick : List Nat → Nat} {progBtf : Nat → Nat}

/-! ## the table -/

/-- The numbers of a table. -/
abbrev keys (t : List (Nat × K)) : List Nat := t.map (·.1)

theorem lookup_mem {t : List (Nat × K)} {n : Nat} {k : K} (h : t.lookup n = some k) : (n, k) ∈ t := by
  induction t with
  | nil => cases h
  | cons x t ih =>
    obtain ⟨m, j⟩ := x
    rw [List.lookup_cons] at h
    by_cases e : n = m
    · subst e; simp at h; subst h; exact List.mem_cons_self
    · rw [show (n == m) = false by simpa using e] at h
      exact List.mem_cons_of_mem _ (ih h)

theorem mem_lookup {t : List (Nat × K)} (hd : (keys t).Nodup) {n : Nat} {k : K} (h : (n, k) ∈ t) : t.lookup n = some k := by
  induction t with
  | nil => cases h
  | cons x t ih =>
    obtain ⟨m, j⟩ := x
    simp only [keys, List.map_cons, List.nodup_cons] at hd
    rw [List.lookup_cons]
    rcases List.mem_cons.mp h with e | hm
    · cases e; simp
    · have : n ≠ m := by rintro rfl; exact hd.1 (List.mem_map.mpr ⟨(n, k), hm, rfl⟩)
      rw [show (n == m) = false by simpa using this]
      exact ih hd.2 hm

theorem eraseP_filter {t : List (Nat × K)} (hd : (keys t).Nodup) (fd : Nat) : t.eraseP (·.1 == fd) = t.filter (fun x => x.1 != fd) := by
  induction t with
  | nil => rfl
  | cons x t ih =>
    simp only [keys, List.map_cons, List.nodup_cons] at hd
    by_cases e : x.1 = fd
    · rw [List.eraseP_cons_of_pos (by simpa using e), List.filter_cons_of_neg (by simp [e])]
      symm
      rw [List.filter_eq_self]
      intro y hy
      simp only [bne_iff_ne]
      intro he
      exact hd.1 (List.mem_map.mpr ⟨y, hy, by rw [he, e]⟩)
    · rw [List.eraseP_cons_of_neg (by simpa using e), List.filter_cons_of_pos (by simpa using e), ih hd.2]

theorem keys_filter (t : List (Nat × K)) (p : Nat → Bool) : keys (t.filter fun x => p x.1) = (keys t).filter p := by
  unfold keys
  rw [List.filter_map]
  rfl

theorem closeFd_eq {s : St} {fd : Nat} (hd : (keys s.table).Nodup) (hm : fd ∈ keys s.table) :
    closeFd fd s = { s with table := s.table.filter (fun x => x.1 != fd) } := by
  unfold closeFd
  rw [eraseP_filter hd]
  have : s.table.any (·.1 == fd) = true := by
    obtain ⟨x, hx, he⟩ := List.mem_map.mp hm
    exact List.any_eq_true.mpr ⟨x, hx, by simpa using he⟩
  simp [this]

theorem closeAll_eq : ∀ (fds : List Nat) (s : St), (keys s.table).Nodup → fds.Nodup → (∀ fd ∈ fds, fd ∈ keys s.table) →
    closeAll fds s = { s with table := s.table.filter (fun x => !fds.contains x.1) } := by
  intro fds
  induction fds with
  | nil =>
    intro s _ _ _
    have : s.table.filter (fun x => !([] : List Nat).contains x.1) = s.table := by rw [List.filter_eq_self]; intro x _; rfl
    rw [this, closeAll]
  | cons fd fds ih =>
    intro s hd hn hm
    rw [List.nodup_cons] at hn
    rw [closeAll, closeFd_eq hd (hm fd List.mem_cons_self)]
    have hd' : (keys (s.table.filter fun x => x.1 != fd)).Nodup := by
      rw [keys_filter s.table (fun n => n != fd)]; exact hd.filter _
    rw [ih _ hd' hn.2]
    · simp only [List.filter_filter, List.contains_cons]
      congr 1
      apply List.filter_congr
      intro x _
      cases h : (x.1 == fd) <;> simp [h, bne]
    · intro g hg
      simp only
      rw [keys_filter s.table (fun n => n != fd), List.mem_filter]
      refine ⟨hm g (List.mem_cons_of_mem _ hg), ?_⟩
      simp only [bne_iff_ne]
      rintro rfl
      exact hn.1 hg

/-- Closing descriptors that were put in front of the table. -/
theorem closeAll_front {fds : List Nat} {s : St} {a tmps b : List (Nat × K)} (ht : s.table = a ++ tmps ++ b) (hd : (keys s.table).Nodup) (hp : (keys tmps).Perm fds) :
    closeAll fds s = { s with table := a ++ b } := by
  have hd0 := hd
  rw [ht] at hd
  simp only [keys, List.map_append] at hd
  rw [List.nodup_append, List.nodup_append] at hd
  obtain ⟨⟨ha, htm, hat⟩, hb, habt⟩ := hd
  have hfd : fds.Nodup := hp.nodup_iff.mp htm
  rw [closeAll_eq fds s hd0 hfd (fun fd hf => by
    rw [ht]; simp only [keys, List.map_append, List.mem_append]; exact Or.inl (Or.inr (hp.mem_iff.mpr hf)))]
  congr 1
  rw [ht, List.filter_append, List.filter_append]
  have e1 : a.filter (fun x => !fds.contains x.1) = a := by
    rw [List.filter_eq_self]
    intro x hx
    simp only [Bool.not_eq_true', List.contains_eq_mem, decide_eq_false_iff_not]
    intro hc
    exact hat x.1 (List.mem_map_of_mem hx) x.1 (hp.mem_iff.mpr hc) rfl
  have e2 : tmps.filter (fun x => !fds.contains x.1) = [] := by
    rw [List.filter_eq_nil_iff]
    intro x hx
    simp only [Bool.not_eq_true', List.contains_eq_mem, decide_eq_false_iff_not, Decidable.not_not]
    exact hp.mem_iff.mp (List.mem_map_of_mem hx)
  have e3 : b.filter (fun x => !fds.contains x.1) = b := by
    rw [List.filter_eq_self]
    intro x hx
    simp only [Bool.not_eq_true', List.contains_eq_mem, decide_eq_false_iff_not]
    intro hc
    exact habt x.1 (List.mem_append_right _ (hp.mem_iff.mpr hc)) x.1 (List.mem_map_of_mem hx) rfl
  rw [e1, e2, e3, List.append_nil]

theorem openFd_nodup (hf : Fresh pick) {k : K} {s : St} (hd : (keys s.table).Nodup) : (keys (openFd pick k s).2.table).Nodup := by
  simp only [openFd, keys, List.map_cons, List.nodup_cons]
  exact ⟨hf _, hd⟩

theorem openAll_spec (hf : Fresh pick) : ∀ (ks : List K) (s : St), (keys s.table).Nodup →
    (openAll pick ks s).2 = { s with table := ((openAll pick ks s).1.zip ks).reverse ++ s.table } ∧ (keys (openAll pick ks s).2.table).Nodup ∧ (openAll pick ks s).1.length = ks.length := by
  intro ks
  induction ks with
  | nil => intro s hd; exact ⟨by simp [openAll], hd, rfl⟩
  | cons k ks ih =>
    intro s hd
    obtain ⟨h1, h2, h3⟩ := ih (openFd pick k s).2 (openFd_nodup hf hd)
    simp only [openAll]
    refine ⟨?_, h2, by simp [h3]⟩
    conv => lhs; rw [h1]
    simp [openFd]

theorem zip_keys (fds : List Nat) (ks : List K) (h : fds.length = ks.length) : (keys (fds.zip ks).reverse).Perm fds := by
  have : keys (fds.zip ks) = fds := by
    unfold keys
    rw [List.map_fst_zip]
    omega
  unfold keys at this ⊢
  rw [List.map_reverse, this]
  exact List.reverse_perm _

/-! ## loading -/

/-- What a part of `newProgram` does: descriptors used are open at every attempt; a program leaves one more descriptor, otherwise everything is as before. -/
structure Fine (pid : Nat) (btf : Option Nat) (ks : List K) (s : St) (r : Option Program × St) : Prop where
  double : r.2.double = s.double
  loads : ∃ new, r.2.loads = s.loads ++ new ∧ ∀ l ∈ new, (∀ x ∈ l.1, x ∈ l.2) ∧ l.1.map (·.2) = ks
  failed : r.1 = none → r.2.table = s.table
  loaded : ∀ p, r.1 = some p → ∃ fd, fd ∉ keys s.table ∧ p = ⟨some fd, pid, btf.map some⟩ ∧ r.2.table = (fd, .prog pid) :: s.table

theorem fine_nodup {pid : Nat} {btf : Option Nat} {ks : List K} {s : St} {r : Option Program × St} (h : Fine pid btf ks s r) (hd : (keys s.table).Nodup) : (keys r.2.table).Nodup := by
  obtain ⟨q, t⟩ := r
  cases q with
  | none => rw [show (none, t).2.table = s.table from h.failed rfl]; exact hd
  | some p =>
    obtain ⟨fd, h1, _, h3⟩ := h.loaded p rfl
    rw [show (some p, t).2.table = _ from h3]
    simp only [keys, List.map_cons, List.nodup_cons]
    exact ⟨h1, hd⟩

/-- Temporary descriptors around a part. -/
theorem fine_wrap {pid : Nat} {btf : Option Nat} {ks : List K} {s s1 : St} {fds : List Nat} {tmps : List (Nat × K)} {r : Option Program × St}
    (h1 : s1 = { s with table := tmps ++ s.table }) (hd1 : (keys s1.table).Nodup) (hp : (keys tmps).Perm fds) (h : Fine pid btf ks s1 r) : Fine pid btf ks s (r.1, closeAll fds r.2) := by
  have hd := fine_nodup h hd1
  obtain ⟨q, t⟩ := r
  cases q with
  | none =>
    have ht : t.table = tmps ++ s.table := by have := h.failed rfl; simpa [h1] using this
    have e := closeAll_front (s := t) (a := []) (tmps := tmps) (b := s.table) (fds := fds) (by simp [ht]) hd hp
    simp only [e]
    refine ⟨?_, ?_, fun _ => by simp, fun p hp => by cases hp⟩
    · have := h.double; simpa [h1] using this
    · have := h.loads; simpa [h1] using this
  | some p =>
    obtain ⟨fd, g1, g2, g3⟩ := h.loaded p rfl
    have ht : t.table = [(fd, .prog pid)] ++ tmps ++ s.table := by simpa [h1] using g3
    have e := closeAll_front (s := t) (fds := fds) ht hd hp
    simp only [e]
    refine ⟨?_, ?_, fun hp => (by cases hp), ?_⟩
    · have := h.double; simpa [h1] using this
    · have := h.loads; simpa [h1] using this
    · intro p' hp'
      cases hp'
      refine ⟨fd, ?_, g2, rfl⟩
      intro hc
      exact g1 (by rw [h1]; simp only [keys, List.map_append, List.mem_append]; exact Or.inr hc)

theorem attempts_spec (used : List (Nat × K)) : ∀ (n : Nat) (s : St), (attempts used n s).table = s.table ∧ (attempts used n s).double = s.double ∧
    ∃ new, (attempts used n s).loads = s.loads ++ new ∧ ∀ l ∈ new, l = (used, s.table) := by
  intro n
  induction n with
  | zero => intro s; exact ⟨rfl, rfl, [(used, s.table)], rfl, by simp⟩
  | succ n ih =>
    intro s
    obtain ⟨h1, h2, new, h3, h4⟩ := ih (attempt used s)
    refine ⟨h1, h2, (used, s.table) :: new, ?_, ?_⟩
    · rw [attempts, h3]; simp [attempt]
    · intro l hl
      rcases List.mem_cons.mp hl with rfl | hl
      · rfl
      · exact h4 l hl

theorem load_fine (hf : Fresh pick) {pid : Nat} {btf : Option Nat} {used : List (Nat × K)} {e : Env} {s : St} (hu : ∀ x ∈ used, x ∈ s.table) :
    Fine pid btf (used.map (·.2)) s (load pick pid btf used e s) := by
  obtain ⟨h1, h2, new, h3, h4⟩ := attempts_spec used e.retries s
  have hl : ∀ l ∈ new, (∀ x ∈ l.1, x ∈ l.2) ∧ l.1.map (·.2) = used.map (·.2) := by
    intro l hl
    rw [h4 l hl]
    exact ⟨hu, rfl⟩
  unfold load
  split
  · refine ⟨h2, ⟨new, h3, hl⟩, fun h => (by cases h), ?_⟩
    intro p hp
    simp only [Option.some.injEq] at hp
    refine ⟨_, ?_, hp.symm, ?_⟩
    · simp only [openFd, h1]; exact hf _
    · simp only [openFd, h1]
  · exact ⟨h2, ⟨new, h3, hl⟩, fun _ => h1, fun p hp => by cases hp⟩

theorem dup_spec (pick : List Nat → Nat) (ok : Bool) (fd : FD) (s : St) :
    (dup pick ok fd s = (none, s)) ∨ (∃ n k, ok = true ∧ fd = some n ∧ (n, k) ∈ s.table ∧ dup pick ok fd s = (some (openFd pick k s).1, (openFd pick k s).2)) := by
  unfold dup
  cases fd with
  | none => exact Or.inl rfl
  | some n =>
    simp only
    cases h : s.table.lookup n with
    | none => exact Or.inl rfl
    | some k =>
      cases ok with
      | false => exact Or.inl rfl
      | true => exact Or.inr ⟨n, k, rfl, rfl, lookup_mem h, rfl⟩

/-- Opening a descriptor and closing it again. -/
theorem open_close (hf : Fresh pick) {k : K} {s : St} (hd : (keys s.table).Nodup) : closeFd (openFd pick k s).1 (openFd pick k s).2 = s := by
  rw [closeFd_eq (openFd_nodup hf hd) (by simp [openFd])]
  have : ((pick (s.table.map (·.1)), k) :: s.table).filter (fun x => x.1 != pick (s.table.map (·.1))) = s.table := by
    rw [List.filter_cons_of_neg (by simp), List.filter_eq_self]
    intro x hx
    simp only [bne_iff_ne]
    intro he
    exact hf _ (by rw [← he]; exact List.mem_map_of_mem hx)
  simp only [openFd, this]

theorem handle_spec (hf : Fresh pick) (c : Calls) (p : Program) (s : St) (hd : (keys s.table).Nodup) :
    p.handle progBtf pick c s = (none, s) ∨ ∃ k, p.handle progBtf pick c s = (some (openFd pick k s).1, (openFd pick k s).2) := by
  unfold Program.handle
  split
  · rename_i h _
    rcases dup_spec pick c.dup1 h s with e | ⟨n, k, _, _, _, e⟩
    · exact Or.inl e
    · exact Or.inr ⟨k, e⟩
  · split
    · exact Or.inl rfl
    · rename_i bid _
      split
      · exact Or.inl rfl
      · unfold handleFromID
        split
        · simp only
          split
          · exact Or.inr ⟨_, rfl⟩
          · rw [open_close hf hd]; exact Or.inl rfl
        · exact Or.inl rfl

theorem findTargetInProgram_same (hf : Fresh pick) (t : Program) (r sp ty : Bool) (c : Calls) (s : St) (hd : (keys s.table).Nodup) :
    (findTargetInProgram progBtf pick t r sp ty c s).2 = s := by
  unfold findTargetInProgram
  split
  · rcases handle_spec (progBtf := progBtf) hf c t s hd with e | ⟨k, e⟩
    · rw [e]
    · rw [e]; simp only [open_close hf hd]
  · rfl

/-- What the target program must be. -/
def targetOk (e : Env) (s : St) : Prop := ∀ t r sp ty c, e.target = .prog t r sp ty c → ∀ fd, t.fd = some fd → (fd, .prog t.pid) ∈ s.table

theorem none_fine {pid : Nat} {btf : Option Nat} {ks : List K} {s : St} : Fine pid btf ks s (none, s) := ⟨rfl, ⟨[], by simp, by simp⟩, fun _ => rfl, fun p hp => by cases hp⟩

theorem finish_fine (hf : Fresh pick) {pid : Nat} {btf : Option Nat} {used : List (Nat × K)} {e : Env} {s : St} (hd : (keys s.table).Nodup) (hu : ∀ x ∈ used, x ∈ s.table)
    (ht : targetOk e s) : Fine pid btf (used.map (·.2) ++ targetKinds e.target) s (finish progBtf pick pid btf used e s) := by
  unfold finish attachTarget
  have plain : Fine pid btf (used.map (·.2) ++ []) s (load pick pid btf (used ++ []) e s) := by
    rw [List.append_nil, List.append_nil]; exact load_fine hf hu
  cases htg : e.target with
  | none => simp only [closeAll, Option.toList, targetKinds]; exact plain
  | prog t r sp ty c =>
    simp only
    have hs := findTargetInProgram_same (progBtf := progBtf) hf t r sp ty c s hd
    generalize findTargetInProgram progBtf pick t r sp ty c s = q at hs
    obtain ⟨b, q⟩ := q
    simp only at hs
    subst hs
    cases b with
    | false => exact none_fine
    | true =>
      simp only [closeAll, Option.toList, targetKinds]
      have := load_fine hf (pid := pid) (btf := btf) (e := e) (s := q) (used := used ++ t.fd.toList.map fun n => (n, .prog t.pid)) (by
        intro x hx
        rcases List.mem_append.mp hx with hx | hx
        · exact hu x hx
        · obtain ⟨n, hn, rfl⟩ := List.mem_map.mp hx
          exact ht t r sp ty c htg n (by simpa using hn))
      rw [List.map_append, List.map_map] at this
      exact this
  | kernel found =>
    cases found with
    | none => exact none_fine
    | some m =>
      cases m with
      | none => simp only [closeAll, Option.toList, targetKinds]; exact plain
      | some bid =>
        simp only [targetKinds]
        have hfine := load_fine hf (pid := pid) (btf := btf) (e := e) (s := (openFd pick (.btf bid) s).2) (used := used ++ [((openFd pick (.btf bid) s).1, .btf bid)]) (by
          intro x hx
          rcases List.mem_append.mp hx with hx | hx
          · exact List.mem_cons_of_mem _ (hu x hx)
          · simp only [List.mem_singleton] at hx; subst hx; exact List.mem_cons_self)
        rw [List.map_append] at hfine
        exact fine_wrap (tmps := [((openFd pick (.btf bid) s).1, .btf bid)]) (fds := [(openFd pick (.btf bid) s).1]) rfl (openFd_nodup hf hd) (List.Perm.refl _) hfine

/-- A layer that opens descriptors, hands them to the kernel and closes them. -/
theorem layer (hf : Fresh pick) {pid : Nat} {btf : Option Nat} {used : List (Nat × K)} {s : St} (hd : (keys s.table).Nodup) (hu : ∀ x ∈ used, x ∈ s.table) (ks rest : List K)
    (inner : List (Nat × K) → St → Option Program × St)
    (hi : ∀ used' s', (keys s'.table).Nodup → (∀ x ∈ used', x ∈ s'.table) → (∀ x ∈ s.table, x ∈ s'.table) → Fine pid btf (used'.map (·.2) ++ rest) s' (inner used' s')) :
    Fine pid btf (used.map (·.2) ++ (ks ++ rest)) s
      ((inner (used ++ (openAll pick ks s).1.zip ks) (openAll pick ks s).2).1, closeAll (openAll pick ks s).1 (inner (used ++ (openAll pick ks s).1.zip ks) (openAll pick ks s).2).2) := by
  obtain ⟨h1, h2, h3⟩ := openAll_spec hf ks s hd
  have := hi (used ++ (openAll pick ks s).1.zip ks) (openAll pick ks s).2 h2 (by
    intro x hx
    rw [h1]
    rcases List.mem_append.mp hx with hx | hx
    · exact List.mem_append_right _ (hu x hx)
    · exact List.mem_append_left _ (List.mem_reverse.mpr hx)) (by
    intro x hx
    rw [h1]
    exact List.mem_append_right _ hx)
  rw [List.map_append, List.map_snd_zip (by omega), List.append_assoc] at this
  exact fine_wrap h1 h2 (zip_keys _ _ h3) this

theorem withKfuncs_fine (hf : Fresh pick) {pid : Nat} {btf : Option Nat} {used : List (Nat × K)} {e : Env} {s : St} (hd : (keys s.table).Nodup) (hu : ∀ x ∈ used, x ∈ s.table)
    (ht : targetOk e s) : Fine pid btf (used.map (·.2) ++ ((e.kfuncs.getD []).map .btf ++ targetKinds e.target)) s (withKfuncs progBtf pick pid btf used e s) := by
  unfold withKfuncs
  cases hk : e.kfuncs with
  | none => exact none_fine
  | some bids =>
    simp only [Option.getD]
    by_cases hm : e.marshaled = true
    · simp only [if_pos hm]
      exact layer hf hd hu (bids.map .btf) _ (fun u s' => finish progBtf pick pid btf u e s') (fun u s' h1 h2 h3 => finish_fine hf h1 h2 (fun t r sp ty c hh fd hfd => h3 _ (ht t r sp ty c hh fd hfd)))
    · simp only [if_neg hm]
      exact layer hf hd hu (bids.map .btf) _ (fun u s' => (none, s')) (fun u s' _ _ _ => none_fine)

theorem withKsyms_fine (hf : Fresh pick) {pid : Nat} {btf : Option Nat} {used : List (Nat × K)} {e : Env} {s : St} (hd : (keys s.table).Nodup) (hu : ∀ x ∈ used, x ∈ s.table)
    (ht : targetOk e s) : Fine pid btf (used.map (·.2) ++ ((e.ksyms.getD []).map .btf ++ ((e.kfuncs.getD []).map .btf ++ targetKinds e.target))) s
      (withKsyms progBtf pick pid btf used e s) := by
  unfold withKsyms
  cases hk : e.ksyms with
  | none => exact none_fine
  | some bids =>
    simp only [Option.getD]
    by_cases hm : e.validated = true
    · simp only [if_pos hm]
      exact layer hf hd hu (bids.map .btf) _ (fun u s' => withKfuncs progBtf pick pid btf u e s') (fun u s' h1 h2 h3 => withKfuncs_fine hf h1 h2 (fun t r sp ty c hh fd hfd => h3 _ (ht t r sp ty c hh fd hfd)))
    · simp only [if_neg hm]
      exact layer hf hd hu (bids.map .btf) _ (fun u s' => (none, s')) (fun u s' _ _ _ => none_fine)

theorem withKconfig_fine (hf : Fresh pick) {pid : Nat} {btf : Option Nat} {used : List (Nat × K)} {e : Env} {s : St} (hd : (keys s.table).Nodup) (hu : ∀ x ∈ used, x ∈ s.table)
    (ht : targetOk e s) : Fine pid btf (used.map (·.2) ++ ((e.kconfig.getD none).toList.map .map ++ ((e.ksyms.getD []).map .btf ++ ((e.kfuncs.getD []).map .btf ++ targetKinds e.target)))) s
      (withKconfig progBtf pick pid btf used e s) := by
  unfold withKconfig
  cases hk : e.kconfig with
  | none => exact none_fine
  | some m =>
    simp only [Option.getD]
    exact layer hf hd hu (m.toList.map .map) _ (fun u s' => withKsyms progBtf pick pid btf u e s') (fun u s' h1 h2 h3 => withKsyms_fine hf h1 h2 (fun t r sp ty c hh fd hfd => h3 _ (ht t r sp ty c hh fd hfd)))

/-- `Handle` gives a new descriptor of the program's own BTF, or changes nothing. -/
theorem handle_exact (hf : Fresh pick) (c : Calls) (p : Program) (s : St) (hd : (s.table.map (·.1)).Nodup) (hi : Intact progBtf p s.table) :
    (HasHandle progBtf c p → ∃ fd, fd ∉ s.table.map (·.1) ∧ p.handle progBtf pick c s = (some fd, { s with table := (fd, .btf (progBtf p.pid)) :: s.table })) ∧
    (¬ HasHandle progBtf c p → p.handle progBtf pick c s = (none, s)) := by
  obtain ⟨fd, pid, btf⟩ := p
  obtain ⟨hi1, hi2⟩ := hi
  cases btf with
  | some b =>
    cases b with
    | none => exact ⟨fun h => h.elim, fun _ => rfl⟩
    | some h =>
      have hl := mem_lookup hd (hi2 h rfl)
      refine ⟨fun hh => ⟨_, hf _, ?_⟩, fun hh => ?_⟩
      · simp only [HasHandle] at hh
        simp only [Program.handle, dup, hl, hh, if_pos]; rfl
      · simp only [HasHandle] at hh
        simp only [Program.handle, dup, hl, hh]; rfl
  | none =>
    cases fd with
    | none => exact ⟨fun h => (h.1 rfl).elim, fun _ => rfl⟩
    | some n =>
      have hl := mem_lookup hd (hi1 n rfl)
      simp only [HasHandle, Program.handle, progInfo, hl, handleFromID, ne_eq]
      cases hi : c.info with
      | false => simp
      | true =>
        by_cases h0 : progBtf pid = 0
        · simp [h0]
        · cases hb : c.byID with
          | false => simp [h0]
          | true =>
            cases hh : c.hinfo with
            | false => simpa [h0] using open_close hf hd
            | true =>
              refine ⟨fun _ => ⟨_, hf _, ?_⟩, fun hn => (hn ⟨(by simp), rfl, h0, rfl, rfl⟩).elim⟩
              simp [h0, openFd]

/-! ## when loading succeeds -/

theorem isSome_pair {α : Type} {x : Option Program × α} : x.1.isSome = true ↔ x.1 ≠ none := by cases x.1 <;> simp

theorem finish_iff (hf : Fresh pick) {pid : Nat} {btf : Option Nat} {used : List (Nat × K)} {e : Env} {s : St} (hd : (keys s.table).Nodup)
    (ht : ∀ t r sp ty c, e.target = .prog t r sp ty c → Intact progBtf t s.table) :
    (finish progBtf pick pid btf used e s).1 ≠ none ↔ Found progBtf e.target ∧ e.accepted = true := by
  have hl : ∀ u s', (load pick pid btf u e s').1 ≠ none ↔ e.accepted = true := by
    intro u s'
    unfold load
    cases e.accepted <;> simp
  unfold finish attachTarget
  cases htg : e.target with
  | none => simp only [Found, true_and]; exact hl _ _
  | prog t r sp ty c =>
    have hx := handle_exact hf c t s hd (ht t r sp ty c htg)
    simp only [Found, findTargetInProgram]
    cases r with
    | false => simp
    | true =>
      by_cases hh : HasHandle progBtf c t
      · obtain ⟨fd, _, he⟩ := hx.1 hh
        rw [he]
        cases sp <;> cases ty <;> simp [hh] <;> exact hl _ _
      · rw [hx.2 hh]
        simp [hh]
  | kernel found =>
    cases found with
    | none => simp [Found]
    | some m =>
      cases m with
      | none => simp only [Found]; rw [hl]; simp
      | some bid => simp only [Found]; rw [hl]; simp

theorem openAll_sub (hf : Fresh pick) (ks : List K) (s : St) (hd : (keys s.table).Nodup) : (keys (openAll pick ks s).2.table).Nodup ∧ ∀ x ∈ s.table, x ∈ (openAll pick ks s).2.table := by
  obtain ⟨h1, h2, _⟩ := openAll_spec hf ks s hd
  refine ⟨h2, fun x hx => ?_⟩
  rw [h1]
  exact List.mem_append_right _ hx

theorem intact_mono {p : Program} {a b : List (Nat × K)} (h : ∀ x ∈ a, x ∈ b) (hi : Intact progBtf p a) : Intact progBtf p b :=
  ⟨fun fd hfd => h _ (hi.1 fd hfd), fun fd hfd => h _ (hi.2 fd hfd)⟩

theorem withKfuncs_iff (hf : Fresh pick) {pid : Nat} {btf : Option Nat} {used : List (Nat × K)} {e : Env} {s : St} (hd : (keys s.table).Nodup)
    (ht : ∀ t r sp ty c, e.target = .prog t r sp ty c → Intact progBtf t s.table) :
    (withKfuncs progBtf pick pid btf used e s).1 ≠ none ↔ (∃ l, e.kfuncs = some l) ∧ e.marshaled = true ∧ Found progBtf e.target ∧ e.accepted = true := by
  unfold withKfuncs
  cases hk : e.kfuncs with
  | none => simp
  | some bids =>
    obtain ⟨h1, h2⟩ := openAll_sub hf (bids.map .btf) s hd
    by_cases hm : e.marshaled = true
    · simp only [if_pos hm]
      rw [finish_iff hf h1 (fun t r sp ty c hh => intact_mono h2 (ht t r sp ty c hh))]
      simp [hm]
    · simp [hm]

theorem withKsyms_iff (hf : Fresh pick) {pid : Nat} {btf : Option Nat} {used : List (Nat × K)} {e : Env} {s : St} (hd : (keys s.table).Nodup)
    (ht : ∀ t r sp ty c, e.target = .prog t r sp ty c → Intact progBtf t s.table) :
    (withKsyms progBtf pick pid btf used e s).1 ≠ none ↔ (∃ l, e.ksyms = some l) ∧ e.validated = true ∧ (∃ l, e.kfuncs = some l) ∧ e.marshaled = true ∧ Found progBtf e.target ∧ e.accepted = true := by
  unfold withKsyms
  cases hk : e.ksyms with
  | none => simp
  | some bids =>
    obtain ⟨h1, h2⟩ := openAll_sub hf (bids.map .btf) s hd
    by_cases hm : e.validated = true
    · simp only [if_pos hm]
      rw [withKfuncs_iff hf h1 (fun t r sp ty c hh => intact_mono h2 (ht t r sp ty c hh))]
      simp [hm]
    · simp [hm]

theorem withKconfig_iff (hf : Fresh pick) {pid : Nat} {btf : Option Nat} {used : List (Nat × K)} {e : Env} {s : St} (hd : (keys s.table).Nodup)
    (ht : ∀ t r sp ty c, e.target = .prog t r sp ty c → Intact progBtf t s.table) :
    (withKconfig progBtf pick pid btf used e s).1 ≠ none ↔
      (∃ m, e.kconfig = some m) ∧ (∃ l, e.ksyms = some l) ∧ e.validated = true ∧ (∃ l, e.kfuncs = some l) ∧ e.marshaled = true ∧ Found progBtf e.target ∧ e.accepted = true := by
  unfold withKconfig
  cases hk : e.kconfig with
  | none => simp
  | some m =>
    obtain ⟨h1, h2⟩ := openAll_sub hf (m.toList.map .map) s hd
    simp only
    rw [withKsyms_iff hf h1 (fun t r sp ty c hh => intact_mono h2 (ht t r sp ty c hh))]
    simp

/-- C109: loading opens exactly the descriptors the program owns, succeeds iff every step does, and passes open descriptors of the right objects to the kernel. -/
theorem load_exact (hf : Fresh pick) (pid : Nat) (e : Env) (s : St) (hd : (s.table.map (·.1)).Nodup)
    (ht : ∀ t r sp ty c, e.target = .prog t r sp ty c → Intact progBtf t s.table) :
    ((newProgram progBtf pick pid e s).1 ≠ none ↔ Succeeds progBtf pid e) ∧
    ((newProgram progBtf pick pid e s).1 = none → (newProgram progBtf pick pid e s).2.table = s.table) ∧
    (∀ p, (newProgram progBtf pick pid e s).1 = some p → Loaded progBtf pid p s.table (newProgram progBtf pick pid e s).2.table) ∧
    (newProgram progBtf pick pid e s).2.double = s.double ∧
    (∃ new, (newProgram progBtf pick pid e s).2.loads = s.loads ++ new ∧ ∀ l ∈ new, (∀ x ∈ l.1, x ∈ l.2) ∧ l.1.map (·.2) = passes progBtf pid e) := by
  unfold newProgram
  by_cases hp : e.prepared = true
  · simp only [if_pos hp]
    unfold loadBtf
    by_cases h0 : progBtf pid = 0
    · simp only [if_pos h0]
      have hfine := withKconfig_fine (progBtf := progBtf) hf (pid := pid) (btf := none) (used := []) (e := e) hd (by simp) (fun t r sp ty c hh => (ht t r sp ty c hh).1)
      have hiff := withKconfig_iff hf (pid := pid) (btf := none) (used := []) hd ht
      simp only [Option.toList, List.map_nil] at hfine ⊢
      generalize withKconfig progBtf pick pid none [] e s = r at hfine hiff
      obtain ⟨q, s'⟩ := r
      have hk : keepBtf none (q, s') = (q, s') := by
        cases q with
        | none => rfl
        | some p => simp [keepBtf, closeAll]
      rw [hk]
      refine ⟨?_, hfine.failed, ?_, hfine.double, ?_⟩
      · rw [hiff]; simp [Succeeds, hp, h0]
      · intro p hpp
        obtain ⟨fd, g1, g2, g3⟩ := hfine.loaded p hpp
        exact ⟨fd, g1, Or.inl ⟨h0, g2, g3⟩⟩
      · simpa [passes, h0, Option.toList] using hfine.loads
    · simp only [if_neg h0]
      cases hb : e.btf with
      | false => simp [Succeeds, hb, h0]
      | true =>
        simp only [if_true]
        generalize hh : (openFd pick (.btf (progBtf pid)) s).1 = h
        have hs1 : (openFd pick (.btf (progBtf pid)) s).2 = { s with table := (h, .btf (progBtf pid)) :: s.table } := by rw [← hh]; rfl
        have hfresh : h ∉ keys s.table := by rw [← hh]; exact hf _
        have hd1 := openFd_nodup hf hd (k := .btf (progBtf pid))
        rw [hs1] at hd1 ⊢
        have ht1 : ∀ t r sp ty c, e.target = .prog t r sp ty c → Intact progBtf t ((h, .btf (progBtf pid)) :: s.table) :=
          fun t r sp ty c hh => intact_mono (fun x hx => List.mem_cons_of_mem _ hx) (ht t r sp ty c hh)
        have hfine := withKconfig_fine (progBtf := progBtf) hf (pid := pid) (btf := some h) (used := [(h, .btf (progBtf pid))]) (e := e) hd1 (by simp) (fun t r sp ty c hh => (ht1 t r sp ty c hh).1)
        have hiff := withKconfig_iff hf (pid := pid) (btf := some h) (used := [(h, .btf (progBtf pid))]) hd1 ht1
        have hn := fine_nodup hfine hd1
        simp only [Option.toList, List.map_cons, List.map_nil] at hfine ⊢
        generalize withKconfig progBtf pick pid (some h) [(h, .btf (progBtf pid))] e _ = r at hfine hiff hn
        obtain ⟨q, s'⟩ := r
        cases q with
        | none =>
          have ht' : s'.table = [] ++ [(h, .btf (progBtf pid))] ++ s.table := hfine.failed rfl
          have hc := closeAll_front (fds := [h]) ht' hn (List.Perm.refl _)
          simp only [keepBtf, Option.toList, hc]
          refine ⟨?_, fun _ => rfl, fun p hpp => (by cases hpp), hfine.double, ?_⟩
          · have : ¬ Succeeds progBtf pid e := fun hs => (hiff.mpr ⟨hs.2.2.1, hs.2.2.2.1, hs.2.2.2.2.1, hs.2.2.2.2.2.1, hs.2.2.2.2.2.2⟩) rfl
            simp [this]
          · simpa [passes, h0, Option.toList] using hfine.loads
        | some p =>
          obtain ⟨fd, g1, g2, g3⟩ := hfine.loaded p rfl
          have hk : keepBtf (some h) (some p, s') = (some p, s') := by
            rw [g2]; simp [keepBtf]
          rw [hk]
          simp only at g3
          refine ⟨?_, fun hpp => (by cases hpp), ?_, hfine.double, ?_⟩
          · have := hiff.mp (by simp)
            exact ⟨fun _ => ⟨hp, Or.inr hb, this⟩, fun _ => by simp⟩
          · intro p' hpp
            cases hpp
            refine ⟨fd, fun hc => g1 (List.mem_cons_of_mem _ hc), Or.inr ⟨h0, h, hfresh, ?_, g2, g3⟩⟩
            rintro rfl
            exact g1 (by simp)
          · simpa [passes, h0, Option.toList] using hfine.loads
  · rw [if_neg hp]
    refine ⟨?_, fun _ => rfl, fun p hpp => (by cases hpp), rfl, [], by simp, by simp⟩
    simp [Succeeds, hp]

/-! ## histories -/

/-- The entries for a handle. -/
def he (h : Option (Nat × Nat)) : List (Nat × K) := h.toList.map fun x => (x.1, .btf x.2)

/-- The invariant, with the BTF of each handle. -/
structure Inv (progBtf : Nat → Nat) (base : List (Nat × K)) (w : World) (hs : List (Option (Nat × Nat))) : Prop where
  handles : w.handles = hs.map (·.map (·.1))
  table : w.st.table.Perm (w.progs.flatMap (pe progBtf) ++ (hs.flatMap he ++ base))
  nodup : (keys w.st.table).Nodup
  single : w.st.double = false
  btf : ∀ p ∈ w.progs, ∀ h, p.btf = some (some h) → progBtf p.pid ≠ 0
  passed : ∀ l ∈ w.st.loads, ∀ x ∈ l.1, x ∈ l.2

theorem keys_pe (p : Program) : keys (pe progBtf p) = ownedBy p := by
  obtain ⟨fd, pid, b⟩ := p
  cases fd <;> cases b with
  | none => rfl
  | some b => cases b <;> rfl

theorem keys_pes (l : List Program) : keys (l.flatMap (pe progBtf)) = l.flatMap ownedBy := by
  induction l with
  | nil => rfl
  | cons p l ih => rw [List.flatMap_cons, List.flatMap_cons, ← ih, ← keys_pe (progBtf := progBtf)]; simp [keys]

theorem keys_hes (hs : List (Option (Nat × Nat))) : keys (hs.flatMap he) = (hs.map (·.map (·.1))).flatMap Option.toList := by
  induction hs with
  | nil => rfl
  | cons h hs ih => rw [List.flatMap_cons, List.map_cons, List.flatMap_cons, ← ih]; cases h <;> simp [keys, he]

theorem inv_owned {base : List (Nat × K)} {w : World} {hs : List (Option (Nat × Nat))} (h : Inv progBtf base w hs) : Owned progBtf base w where
  distinct := h.nodup
  exact := by
    have := h.table.map (·.1)
    rw [List.map_append, List.map_append] at this
    rw [show (w.progs.flatMap (pe progBtf)).map (·.1) = _ from keys_pes w.progs, show (hs.flatMap he).map (·.1) = _ from keys_hes hs, ← h.handles, ← List.append_assoc] at this
    exact this
  foreign := fun x hx => h.table.mem_iff.mpr (List.mem_append_right _ (List.mem_append_right _ hx))
  progs := fun p hp fd hfd => h.table.mem_iff.mpr (List.mem_append_left _ (List.mem_flatMap.mpr ⟨p, hp, List.mem_append_left _ (by simp [fe, hfd])⟩))
  btfs := fun p hp fd hfd => ⟨h.table.mem_iff.mpr (List.mem_append_left _ (List.mem_flatMap.mpr ⟨p, hp, List.mem_append_right _ (by simp [be, hfd])⟩)), h.btf p hp fd hfd⟩
  handles := by
    intro fd hfd
    rw [h.handles] at hfd
    obtain ⟨x, hx, he'⟩ := List.mem_map.mp hfd
    cases x with
    | none => cases he'
    | some x =>
      cases he'
      exact ⟨x.2, h.table.mem_iff.mpr (List.mem_append_right _ (List.mem_append_left _ (List.mem_flatMap.mpr ⟨_, hx, by simp [he]⟩)))⟩
  single := h.single
  passed := h.passed

theorem owned_intact {base : List (Nat × K)} {w : World} (h : Owned progBtf base w) {p : Program} (hp : p ∈ w.progs) : Intact progBtf p w.st.table :=
  ⟨h.progs p hp, fun fd hfd => (h.btfs p hp fd hfd).1⟩

/-- Closing one descriptor. -/
theorem closeFd_perm {s : St} {fd : Nat} {k : K} {rest : List (Nat × K)} (ht : s.table.Perm ((fd, k) :: rest)) (hd : (keys s.table).Nodup) :
    (closeFd fd s).table.Perm rest ∧ (keys (closeFd fd s).table).Nodup ∧ (closeFd fd s).double = s.double ∧ (closeFd fd s).loads = s.loads := by
  rw [closeFd_eq hd (List.mem_map.mpr ⟨(fd, k), ht.mem_iff.mpr List.mem_cons_self, rfl⟩)]
  refine ⟨?_, ?_, rfl, rfl⟩
  · have := ht.filter (fun x => x.1 != fd)
    rw [List.filter_cons_of_neg (by simp)] at this
    have hn : (keys ((fd, k) :: rest)).Nodup := (ht.map (·.1)).nodup_iff.mp hd
    simp only [keys, List.map_cons, List.nodup_cons] at hn
    have e : rest.filter (fun x => x.1 != fd) = rest := by
      rw [List.filter_eq_self]
      intro x hx
      simp only [bne_iff_ne]
      rintro rfl
      exact hn.1 (List.mem_map_of_mem hx)
    rw [e] at this
    exact this
  · simp only
    rw [keys_filter s.table (fun n => n != fd)]
    exact hd.filter _

theorem fdClose_perm {s : St} {fd : FD} {pid : Nat} {rest : List (Nat × K)} (ht : s.table.Perm (fe fd pid ++ rest)) (hd : (keys s.table).Nodup) :
    (fd.close s).table.Perm rest ∧ (keys (fd.close s).table).Nodup ∧ (fd.close s).double = s.double ∧ (fd.close s).loads = s.loads := by
  cases fd with
  | none => exact ⟨ht, hd, rfl, rfl⟩
  | some n => exact closeFd_perm (by simpa [fe] using ht) hd

theorem closeBtf_perm {s : St} {b : Option FD} {pid : Nat} {rest : List (Nat × K)} (ht : s.table.Perm (be progBtf b pid ++ rest)) (hd : (keys s.table).Nodup) :
    (closeBtf b s).table.Perm rest ∧ (keys (closeBtf b s).table).Nodup ∧ (closeBtf b s).double = s.double ∧ (closeBtf b s).loads = s.loads := by
  cases b with
  | none => exact ⟨by simpa [be, closeBtf] using ht, hd, rfl, rfl⟩
  | some b =>
    cases b with
    | none => exact ⟨ht, hd, rfl, rfl⟩
    | some n => exact closeFd_perm (by simpa [be] using ht) hd

theorem be_closed (b : Option FD) (pid : Nat) : be progBtf (closedBtf b) pid = [] := by cases b <;> rfl

/-- What a closed program leaves. -/
theorem close_perm (err : Bool) {p : Program} {s : St} {rest : List (Nat × K)} (ht : s.table.Perm (pe progBtf p ++ rest)) (hd : (keys s.table).Nodup) :
    (p.close err s).2.table.Perm (pe progBtf (p.close err s).1 ++ rest) ∧ (keys (p.close err s).2.table).Nodup ∧ (p.close err s).2.double = s.double ∧ (p.close err s).2.loads = s.loads := by
  have h1 : s.table.Perm (be progBtf p.btf p.pid ++ (fe p.fd p.pid ++ rest)) := by
    refine ht.trans ?_
    rw [pe, List.append_assoc, ← List.append_assoc, ← List.append_assoc]
    exact List.Perm.append_right _ List.perm_append_comm
  obtain ⟨g1, g2, g3, g4⟩ := closeBtf_perm h1 hd
  unfold Program.close
  split
  · refine ⟨?_, g2, g3, g4⟩
    simp only [pe, be_closed, List.append_nil]
    exact g1
  · obtain ⟨k1, k2, k3, k4⟩ := fdClose_perm g1 g2
    refine ⟨?_, k2, k3.trans g3, k4.trans g4⟩
    simp only [pe, be_closed, List.append_nil]
    exact k1

theorem split_at {α : Type} {l : List α} {i : Nat} {x : α} (h : l[i]? = some x) : ∃ a b, l = a ++ x :: b ∧ ∀ y, l.set i y = a ++ y :: b := by
  induction l generalizing i with
  | nil => cases h
  | cons z l ih =>
    cases i with
    | zero => cases h; exact ⟨[], l, rfl, fun _ => rfl⟩
    | succ i =>
      obtain ⟨a, b, h1, h2⟩ := ih (i := i) h
      exact ⟨z :: a, b, by rw [h1]; rfl, fun y => by rw [List.set_cons_succ, h2]; rfl⟩

theorem mid_perm (a m b c : List (Nat × K)) : ((a ++ (m ++ b)) ++ c).Perm (m ++ (a ++ b ++ c)) := by
  rw [← List.append_assoc, List.append_assoc (a ++ m)]
  refine (List.Perm.append_right _ List.perm_append_comm).trans ?_
  simp

/-- Replacing one program. -/
theorem inv_replace {base : List (Nat × K)} {w : World} {hs : List (Option (Nat × Nat))} (h : Inv progBtf base w hs) {i : Nat} {p p' : Program} (hp : w.progs[i]? = some p) {s' : St}
    (ht : ∀ rest, w.st.table.Perm (pe progBtf p ++ rest) → s'.table.Perm (pe progBtf p' ++ rest)) (hn : (keys s'.table).Nodup) (hd : s'.double = w.st.double) (hl : s'.loads = w.st.loads)
    (hb : ∀ g, p'.btf = some (some g) → progBtf p'.pid ≠ 0) : Inv progBtf base { w with st := s', progs := w.progs.set i p' } hs := by
  obtain ⟨a, b, h1, h2⟩ := split_at hp
  refine ⟨h.handles, ?_, hn, hd.trans h.single, ?_, by rw [hl]; exact h.passed⟩
  · simp only [h2, List.flatMap_append, List.flatMap_cons]
    refine (ht _ ?_).trans (mid_perm _ _ _ _).symm
    refine h.table.trans ?_
    rw [h1, List.flatMap_append, List.flatMap_cons]
    exact mid_perm _ _ _ _
  · intro q hq
    simp only [h2] at hq
    rcases List.mem_append.mp hq with hq | hq
    · exact h.btf q (by rw [h1]; exact List.mem_append_left _ hq)
    · rcases List.mem_cons.mp hq with rfl | hq
      · exact hb
      · exact h.btf q (by rw [h1]; exact List.mem_append_right _ (List.mem_cons_of_mem _ hq))

/-- A program more. -/
theorem inv_addProg {base : List (Nat × K)} {w : World} {hs : List (Option (Nat × Nat))} (h : Inv progBtf base w hs) {p : Program} {s' : St}
    (ht : s'.table.Perm (pe progBtf p ++ w.st.table)) (hn : (keys s'.table).Nodup) (hd : s'.double = w.st.double) (hl : ∀ l ∈ s'.loads, ∀ x ∈ l.1, x ∈ l.2)
    (hb : ∀ g, p.btf = some (some g) → progBtf p.pid ≠ 0) : Inv progBtf base { w with st := s', progs := w.progs ++ [p] } hs := by
  refine ⟨h.handles, ?_, hn, hd.trans h.single, ?_, hl⟩
  · simp only [List.flatMap_append, List.flatMap_cons, List.flatMap_nil]
    refine (ht.trans (List.Perm.append_left _ h.table)).trans ?_
    have := (mid_perm (w.progs.flatMap (pe progBtf)) (pe progBtf p) [] (hs.flatMap he ++ base)).symm
    simpa using this
  · intro q hq
    rcases List.mem_append.mp hq with hq | hq
    · exact h.btf q hq
    · rw [List.mem_singleton] at hq; subst hq; exact hb

/-- Nothing new. -/
theorem inv_same {base : List (Nat × K)} {w : World} {hs : List (Option (Nat × Nat))} (h : Inv progBtf base w hs) {s' : St} (ht : s'.table = w.st.table) (hd : s'.double = w.st.double)
    (hl : ∀ l ∈ s'.loads, ∀ x ∈ l.1, x ∈ l.2) : Inv progBtf base { w with st := s' } hs :=
  ⟨h.handles, by simp only [ht]; exact h.table, by simp only [ht]; exact h.nodup, hd.trans h.single, h.btf, hl⟩

/-- `Clone` gives a program with descriptors of its own, or changes nothing. -/
theorem clone_exact (hf : Fresh pick) (c : Calls) (p : Program) (s : St) (hd : (s.table.map (·.1)).Nodup) (hi : Intact progBtf p s.table) :
    ((p.clone pick c s).1 = none → (p.clone pick c s).2 = s) ∧
    (∀ q, (p.clone pick c s).1 = some q → q.pid = p.pid ∧ (q.btf = none ↔ p.btf = none) ∧ (q.btf ≠ some none) ∧ q.fd ≠ none ∧ (ownedBy q).Nodup ∧ (∀ n ∈ ownedBy q, n ∉ s.table.map (·.1)) ∧
      (p.clone pick c s).2 = { s with table := pe progBtf q ++ s.table }) ∧
    ((p.clone pick c s).1 ≠ none ↔ p.fd ≠ none ∧ c.dup2 = true ∧ (p.btf = none ∨ ((∃ h, p.btf = some (some h)) ∧ c.dup1 = true))) := by
  obtain ⟨fd, pid, btf⟩ := p
  obtain ⟨hi1, hi2⟩ := hi
  have hdup : ∀ (s' : St), (keys s'.table).Nodup → (∀ x ∈ s.table, x ∈ s'.table) → (dup pick c.dup2 fd s' = if fd ≠ none ∧ c.dup2 = true then
      (some (openFd pick (.prog pid) s').1, (openFd pick (.prog pid) s').2) else (none, s')) := by
    intro s' hd' hsub
    cases fd with
    | none => simp [dup]
    | some n =>
      have hl := mem_lookup hd' (hsub _ (hi1 n rfl))
      simp only [dup, hl]
      cases c.dup2 <;> simp
  cases btf with
  | none =>
    simp only [Program.clone, cloneBtf, hdup s hd (fun _ h => h)]
    by_cases hc : fd ≠ none ∧ c.dup2 = true
    · simp only [if_pos hc]
      refine ⟨fun h => (by cases h), ?_, by simp [hc]⟩
      intro q hq
      cases hq
      refine ⟨rfl, by simp, by simp, by simp, by simp [ownedBy], ?_, rfl⟩
      intro n hn
      simp [ownedBy] at hn
      subst hn
      exact hf _
    · simp only [if_neg hc]
      exact ⟨fun _ => rfl, fun q hq => (by cases hq), ⟨fun h => (h rfl).elim, fun h => (hc ⟨h.1, h.2.1⟩).elim⟩⟩
  | some b =>
    cases b with
    | none =>
      simp [Program.clone, cloneBtf, dup]
    | some h =>
      have hl := mem_lookup hd (hi2 h rfl)
      cases hc1 : c.dup1 with
      | false =>
        simp [Program.clone, cloneBtf, dup, hl, hc1]
      | true =>
        simp only [Program.clone, cloneBtf, dup.eq_2, hl, hc1, if_true]
        rw [hdup _ (openFd_nodup hf hd) (fun x hx => List.mem_cons_of_mem _ hx)]
        by_cases hc : fd ≠ none ∧ c.dup2 = true
        · simp only [if_pos hc]
          refine ⟨fun h => (by cases h), ?_, by simp [hc]⟩
          intro q hq
          cases hq
          refine ⟨rfl, by simp, by simp, by simp, ?_, ?_, rfl⟩
          · simp only [ownedBy, Option.toList, List.cons_append, List.nil_append, List.nodup_cons, List.mem_cons, List.not_mem_nil, or_false, not_false_iff, List.nodup_nil, and_true]
            intro e
            exact hf (keys (openFd pick (.btf (progBtf pid)) s).2.table) (by rw [show pick (keys (openFd pick (.btf (progBtf pid)) s).2.table) = _ from e]; exact List.mem_cons_self)
          intro n hn
          simp only [ownedBy, Option.toList, List.cons_append, List.nil_append, List.mem_cons, List.not_mem_nil, or_false] at hn
          rcases hn with rfl | rfl
          · intro hcc
            exact hf (keys (openFd pick (.btf (progBtf pid)) s).2.table) (List.mem_cons_of_mem _ hcc)
          · exact hf _
        · simp only [if_neg hc]
          refine ⟨fun _ => open_close hf hd, fun q hq => (by cases hq), ⟨fun h => (h rfl).elim, fun h => (hc ⟨h.1, h.2.1⟩).elim⟩⟩

/-- `SetHandle` accepts a handle of the program's own BTF only; the program then has a descriptor of its own, and the caller keeps the handle. -/
theorem setHandle_exact (hf : Fresh pick) (c : Calls) (p : Program) (h : FD) (s : St) (hd : (s.table.map (·.1)).Nodup) (hi : Intact progBtf p s.table)
    (hh : ∀ n, h = some n → ∃ bid, (n, .btf bid) ∈ s.table) :
    ((p.setHandle progBtf pick c h s).2.1 = true ↔ p.fd ≠ none ∧ c.info = true ∧ c.hinfo = true ∧ progBtf p.pid ≠ 0 ∧ (∃ n, h = some n ∧ (n, .btf (progBtf p.pid)) ∈ s.table) ∧
      (p.btf ≠ none ∨ c.dup1 = true)) ∧
    ((p.setHandle progBtf pick c h s).2.1 = false ∨ p.btf ≠ none → (p.setHandle progBtf pick c h s).1 = p ∧ (p.setHandle progBtf pick c h s).2.2 = s) ∧
    ((p.setHandle progBtf pick c h s).2.1 = true → p.btf = none → ∃ d, d ∉ s.table.map (·.1) ∧ (p.setHandle progBtf pick c h s).1 = { p with btf := some (some d) } ∧
      (p.setHandle progBtf pick c h s).2.2 = { s with table := (d, .btf (progBtf p.pid)) :: s.table }) := by
  obtain ⟨fd, pid, btf⟩ := p
  obtain ⟨hi1, hi2⟩ := hi
  cases fd with
  | none => simp [Program.setHandle, progInfo]
  | some n =>
    have hl := mem_lookup hd (hi1 n rfl)
    cases hci : c.info with
    | false => simp [Program.setHandle, progInfo, hl, hci]
    | true =>
      cases h with
      | none => simp [Program.setHandle, progInfo, hl, hci, handleInfo]
      | some m =>
        obtain ⟨bid, hb⟩ := hh m rfl
        have hlb := mem_lookup hd hb
        have hiff : (m, K.btf (progBtf pid)) ∈ s.table ↔ progBtf pid = bid := by
          constructor
          · intro hm
            have := (mem_lookup hd hm).symm.trans hlb
            simpa using this
          · intro e; rw [e]; exact hb
        cases hch : c.hinfo with
        | false => simp [Program.setHandle, progInfo, hl, hci, handleInfo, hlb, hch]
        | true =>
          by_cases hbad : progBtf pid = 0 ∨ progBtf pid ≠ bid
          · simp only [Program.setHandle, progInfo, hl, hci, handleInfo, hlb, hch, if_true, if_pos hbad]
            refine ⟨⟨fun h => (by cases h), ?_⟩, fun _ => (by simp), fun h => (by cases h)⟩
            rintro ⟨_, _, _, h0, ⟨m', hm, hm'⟩, _⟩
            cases hm
            rcases hbad with hbad | hbad
            · exact (h0 hbad).elim
            · exact (hbad (hiff.mp hm')).elim
          · simp only [Program.setHandle, progInfo, hl, hci, handleInfo, hlb, hch, if_true, if_neg hbad]
            have h0 : progBtf pid ≠ 0 := fun h => hbad (Or.inl h)
            have he : progBtf pid = bid := Decidable.not_not.mp fun h => hbad (Or.inr h)
            have hm := hiff.mpr he
            cases btf with
            | some b =>
              simp only [Option.isSome, if_true]
              exact ⟨⟨fun _ => ⟨(by simp), (by trivial), (by trivial), h0, ⟨m, rfl, hm⟩, Or.inl (by simp)⟩, fun _ => (by trivial)⟩, fun _ => (by simp), fun _ h => (by cases h)⟩
            | none =>
              simp only [Option.isSome, dup, hlb]
              cases hcd : c.dup1 with
              | false => simp
              | true =>
                refine ⟨⟨fun _ => ⟨(by simp), (by trivial), (by trivial), h0, ⟨m, rfl, hm⟩, Or.inr rfl⟩, fun _ => (by rfl)⟩, ?_, fun _ _ => ⟨_, hf _, rfl, ?_⟩⟩
                · rintro (h | h)
                  · cases h
                  · exact (h rfl).elim
                · rw [he]; rfl

theorem hes_mem {hs : List (Option (Nat × Nat))} {n bid : Nat} {base : List (Nat × K)} {l : List (Nat × K)} (h : some (n, bid) ∈ hs) : (n, K.btf bid) ∈ l ++ (hs.flatMap he ++ base) :=
  List.mem_append_right _ (List.mem_append_left _ (List.mem_flatMap.mpr ⟨_, h, by simp [he]⟩))

theorem loaded_perm {pid : Nat} {p : Program} {a b : List (Nat × K)} (h : Loaded progBtf pid p a b) (hn : (keys a).Nodup) :
    b.Perm (pe progBtf p ++ a) ∧ (keys b).Nodup ∧ ∀ g, p.btf = some (some g) → progBtf p.pid ≠ 0 := by
  obtain ⟨fd, h1, ⟨h0, rfl, rfl⟩ | ⟨h0, g, h2, h3, rfl, rfl⟩⟩ := h
  · refine ⟨List.Perm.refl _, ?_, fun g hg => (by cases hg)⟩
    simp only [keys, List.map_cons, List.nodup_cons]
    exact ⟨h1, hn⟩
  · refine ⟨List.Perm.refl _, ?_, fun _ _ => h0⟩
    simp only [keys, List.map_cons, List.nodup_cons, List.mem_cons, not_or]
    exact ⟨⟨h3, h1⟩, h2, hn⟩

theorem inv_step (hf : Fresh pick) {base : List (Nat × K)} {w : World} {hs : List (Option (Nat × Nat))} (h : Inv progBtf base w hs) (op : Op) (hu : Uses w op) :
    ∃ hs', Inv progBtf base (step progBtf pick w op) hs' := by
  have ho := inv_owned h
  cases op with
  | load pid e =>
    obtain ⟨_, g2, g3, g4, new, g5, g6⟩ := load_exact hf pid e w.st h.nodup (fun t r sp ty c ht => owned_intact ho (hu t r sp ty c ht))
    have hl : ∀ l ∈ (newProgram progBtf pick pid e w.st).2.loads, ∀ x ∈ l.1, x ∈ l.2 := by
      intro l hl
      rw [g5] at hl
      rcases List.mem_append.mp hl with hl | hl
      · exact h.passed l hl
      · exact (g6 l hl).1
    refine ⟨hs, ?_⟩
    simp only [step]
    generalize newProgram progBtf pick pid e w.st = r at g2 g3 g4 hl
    obtain ⟨q, s'⟩ := r
    cases q with
    | none => exact inv_same h (g2 rfl) g4 hl
    | some p =>
      obtain ⟨k1, k2, k3⟩ := loaded_perm (g3 p rfl) h.nodup
      exact inv_addProg h k1 k2 g4 hl k3
  | fromID pid byID info =>
    refine ⟨hs, ?_⟩
    simp only [step, newProgramFromID]
    cases byID with
    | false => exact h
    | true =>
      cases info with
      | false =>
        simp only [newProgramFromFD, if_true]
        have := open_close hf h.nodup (k := .prog pid)
        exact inv_same h (by rw [this]) (by rw [this]) (by rw [this]; exact h.passed)
      | true => exact inv_addProg h (p := ⟨some _, pid, none⟩) (List.Perm.refl _) (openFd_nodup hf h.nodup) rfl h.passed (fun g hg => by cases hg)
  | handle i c =>
    simp only [step]
    cases hp : w.progs[i]? with
    | none => exact ⟨hs, h⟩
    | some p =>
      have hm := List.mem_of_getElem? hp
      have hx := handle_exact hf c p w.st h.nodup (owned_intact ho hm)
      by_cases hh : HasHandle progBtf c p
      · obtain ⟨fd, h1, h2⟩ := hx.1 hh
        refine ⟨hs ++ [some (fd, progBtf p.pid)], ?_⟩
        simp only [h2]
        refine ⟨by simp [World.addHandle, h.handles], ?_, ?_, h.single, h.btf, h.passed⟩
        · simp only [World.addHandle, List.flatMap_append, List.flatMap_cons, List.flatMap_nil]
          refine (List.Perm.cons _ h.table).trans ?_
          have := (mid_perm (w.progs.flatMap (pe progBtf) ++ hs.flatMap he) (he (some (fd, progBtf p.pid))) [] base).symm
          simpa [he] using this
        · simp only [World.addHandle, keys, List.map_cons, List.nodup_cons]
          exact ⟨h1, h.nodup⟩
      · simp only [hx.2 hh]
        exact ⟨hs, h⟩
  | setHandle i j c =>
    refine ⟨hs, ?_⟩
    simp only [step]
    cases hp : w.progs[i]? with
    | none => exact h
    | some p =>
      cases hj : w.handles[j]? with
      | none => exact h
      | some g =>
        have hm := List.mem_of_getElem? hp
        have hg := List.mem_of_getElem? hj
        obtain ⟨k1, k2, k3⟩ := setHandle_exact hf c p g w.st h.nodup (owned_intact ho hm) (fun n hn => ho.handles n (hn ▸ hg))
        simp only
        by_cases hs' : (p.setHandle progBtf pick c g w.st).2.1 = false ∨ p.btf ≠ none
        · obtain ⟨e1, e2⟩ := k2 hs'
          rw [e1, e2]
          exact inv_replace h hp (fun rest hr => hr) h.nodup rfl rfl (fun g hg => (ho.btfs p hm g hg).2)
        · have hok : (p.setHandle progBtf pick c g w.st).2.1 = true := by
            cases hb : (p.setHandle progBtf pick c g w.st).2.1 with
            | true => rfl
            | false => exact (hs' (Or.inl hb)).elim
          have hnb : p.btf = none := Decidable.not_not.mp fun hh => hs' (Or.inr hh)
          obtain ⟨d, d1, d2, d3⟩ := k3 hok hnb
          rw [d2, d3]
          refine inv_replace h hp (fun rest hr => ?_) ?_ rfl rfl (fun _ _ => (k1.mp hok).2.2.2.1)
          · have : pe progBtf p = fe p.fd p.pid := by simp [pe, be, hnb]
            rw [this] at hr
            simp only [pe, be, List.append_assoc]
            exact (List.Perm.cons _ hr).trans List.perm_middle.symm
          · simp only [keys, List.map_cons, List.nodup_cons]
            exact ⟨d1, h.nodup⟩
  | clone i c =>
    refine ⟨hs, ?_⟩
    simp only [step]
    cases hp : w.progs[i]? with
    | none => exact h
    | some p =>
      have hm := List.mem_of_getElem? hp
      obtain ⟨k1, k2, k3⟩ := clone_exact hf c p w.st h.nodup (owned_intact ho hm)
      simp only
      generalize p.clone pick c w.st = r at k1 k2 k3
      obtain ⟨q, s'⟩ := r
      cases q with
      | none => exact inv_same h (by rw [show s' = _ from k1 rfl]) (by rw [show s' = _ from k1 rfl]) (by rw [show s' = _ from k1 rfl]; exact h.passed)
      | some q =>
        obtain ⟨e1, e2, e3, e4, e7, e5, e6⟩ := k2 q rfl
        have hk3 := k3.mp (by simp)
        simp only at e6
        subst e6
        refine inv_addProg h (List.Perm.refl _) ?_ rfl h.passed ?_
        · simp only [keys, List.map_append]
          rw [List.nodup_append]
          refine ⟨?_, h.nodup, ?_⟩
          · show (keys (pe progBtf q)).Nodup
            rw [keys_pe]
            exact e7
          · intro a ha b hb hab
            subst hab
            rw [show (pe progBtf q).map (·.1) = _ from keys_pe q] at ha
            exact e5 a ha hb
        · intro g hg
          have : p.btf ≠ none := fun hh => by rw [e2.mpr hh] at hg; cases hg
          cases hb : p.btf with
          | none => exact (this hb).elim
          | some b =>
            cases b with
            | none => rw [hb] at hk3; simp at hk3
            | some g' => rw [e1]; exact (ho.btfs p hm g' hb).2
  | closeProg i err =>
    refine ⟨hs, ?_⟩
    simp only [step]
    cases hp : w.progs[i]? with
    | none => exact h
    | some p =>
      have hm := List.mem_of_getElem? hp
      obtain ⟨a, b, h1, h2⟩ := split_at hp
      have ht : w.st.table.Perm (pe progBtf p ++ (a.flatMap (pe progBtf) ++ b.flatMap (pe progBtf) ++ (hs.flatMap he ++ base))) := by
        refine h.table.trans ?_
        rw [h1, List.flatMap_append, List.flatMap_cons]
        exact mid_perm _ _ _ _
      obtain ⟨_, c2, c3, c4⟩ := close_perm err ht h.nodup
      refine inv_replace h hp (fun rest hr => (close_perm err hr h.nodup).1) c2 c3 c4 ?_
      intro g hg
      exfalso
      revert hg
      unfold Program.close
      split <;> cases p.btf <;> simp [closedBtf]
  | closeHandle j =>
    simp only [step]
    cases hj : w.handles[j]? with
    | none => exact ⟨hs, h⟩
    | some g =>
      rw [h.handles, List.getElem?_map] at hj
      obtain ⟨x, hx, hxg⟩ := Option.map_eq_some_iff.mp hj
      obtain ⟨a, b, h1, h2⟩ := split_at hx
      refine ⟨hs.set j none, ?_⟩
      have ht : w.st.table.Perm (he x ++ (w.progs.flatMap (pe progBtf) ++ (a.flatMap he ++ b.flatMap he) ++ base)) := by
        refine h.table.trans ?_
        rw [h1, List.flatMap_append, List.flatMap_cons]
        have := mid_perm (w.progs.flatMap (pe progBtf) ++ a.flatMap he) (he x) (b.flatMap he) base
        simpa using this
      have hset : w.handles.set j none = (hs.set j none).map (·.map (·.1)) := by
        rw [h.handles, List.map_set]; rfl
      have hgoal : (w.progs.flatMap (pe progBtf) ++ ((hs.set j none).flatMap he ++ base)) = w.progs.flatMap (pe progBtf) ++ (a.flatMap he ++ b.flatMap he) ++ base := by
        rw [h2, List.flatMap_append, List.flatMap_cons]; simp [he]
      cases x with
      | none =>
        cases hxg
        exact ⟨hset, by simp only [hgoal]; exact ht, h.nodup, h.single, h.btf, h.passed⟩
      | some x =>
        cases hxg
        obtain ⟨c1, c2, c3, c4⟩ := closeFd_perm (s := w.st) (fd := x.1) (k := .btf x.2) ht h.nodup
        exact ⟨hset, by simp only [hgoal]; exact c1, c2, c3.trans h.single, h.btf, by simp only [FD.close]; exact h.passed⟩

theorem inv_run (hf : Fresh pick) {base : List (Nat × K)} : ∀ (ops : List Op) (w : World) (hs : List (Option (Nat × Nat))), Inv progBtf base w hs → Legal progBtf pick w ops →
    ∃ hs', Inv progBtf base (run progBtf pick w ops) hs' := by
  intro ops
  induction ops with
  | nil => intro w hs h _; exact ⟨hs, h⟩
  | cons op ops ih =>
    intro w hs h hl
    obtain ⟨hs', h'⟩ := inv_step hf h op hl.1
    exact ih _ hs' h' hl.2

/-- The start: a process with other descriptors, no programs and no handles. -/
theorem inv_start {base : List (Nat × K)} (hb : (keys base).Nodup) : Inv progBtf base ⟨⟨base, false, []⟩, [], []⟩ [] :=
  ⟨rfl, List.Perm.refl _, hb, rfl, by simp, by simp⟩

/-- C109: after any history every descriptor is owned by exactly one program or handle, which refers to what it should; nothing was closed twice. -/
theorem history (hf : Fresh pick) (base : List (Nat × K)) (hb : (base.map (·.1)).Nodup) (ops : List Op) (hl : Legal progBtf pick ⟨⟨base, false, []⟩, [], []⟩ ops) :
    Owned progBtf base (run progBtf pick ⟨⟨base, false, []⟩, [], []⟩ ops) := by
  obtain ⟨hs, h⟩ := inv_run hf ops _ _ (inv_start (progBtf := progBtf) hb) hl
  exact inv_owned h

/-- C109: once everything has been closed, the process has the descriptors it started with. -/
theorem nothing_left (hf : Fresh pick) (base : List (Nat × K)) (hb : (base.map (·.1)).Nodup) (ops : List Op) (hl : Legal progBtf pick ⟨⟨base, false, []⟩, [], []⟩ ops)
    (hc : owners (run progBtf pick ⟨⟨base, false, []⟩, [], []⟩ ops) = []) : (run progBtf pick ⟨⟨base, false, []⟩, [], []⟩ ops).st.table.Perm base := by
  obtain ⟨hs, h⟩ := inv_run hf ops _ _ (inv_start (progBtf := progBtf) hb) hl
  generalize run progBtf pick ⟨⟨base, false, []⟩, [], []⟩ ops = w at hc h
  unfold owners at hc
  rw [List.append_eq_nil_iff] at hc
  have e1 : w.progs.flatMap (pe progBtf) = [] := by
    have := keys_pes (progBtf := progBtf) w.progs
    rw [hc.1] at this
    exact List.map_eq_nil_iff.mp this
  have e2 : hs.flatMap he = [] := by
    have := keys_hes hs
    rw [← h.handles, hc.2] at this
    exact List.map_eq_nil_iff.mp this
  have := h.table
  rw [e1, e2] at this
  exact this

/-- C109: `Close` leaves a program nothing, unless closing the BTF reports an error; then closing again does. -/
theorem close_exact (p : Program) (s : St) (err : Bool) (s' : St) :
    ownedBy (p.close false s).1 = [] ∧ ownedBy ((p.close err s).1.close err s').1 = [] ∧ (∀ n ∈ ownedBy (p.close err s).1, n ∈ p.fd) ∧ (p.close err s).1.pid = p.pid := by
  obtain ⟨fd, pid, b⟩ := p
  cases b with
  | none => cases err <;> simp [Program.close, isOpen, closedBtf, ownedBy]
  | some b => cases b <;> cases err <;> simp [Program.close, isOpen, closedBtf, ownedBy, Option.toList] <;> cases fd <;> simp

/-- `NewProgramFromID`: a new descriptor of that program, without BTF; or nothing changes. -/
theorem fromID_exact (hf : Fresh pick) (byID info : Bool) (pid : Nat) (s : St) (hd : (s.table.map (·.1)).Nodup) :
    (byID = true ∧ info = true → ∃ fd, fd ∉ s.table.map (·.1) ∧ newProgramFromID pick byID info pid s = (some ⟨some fd, pid, none⟩, { s with table := (fd, .prog pid) :: s.table })) ∧
    (¬ (byID = true ∧ info = true) → newProgramFromID pick byID info pid s = (none, s)) := by
  cases byID with
  | false => simp [newProgramFromID]
  | true =>
    cases info with
    | false => simpa [newProgramFromID, newProgramFromFD] using open_close hf hd
    | true => exact ⟨fun _ => ⟨_, hf _, rfl⟩, fun h => (h ⟨rfl, rfl⟩).elim⟩

/-! ## examples -/

/-- The number above all open descriptors. -/
def above (l : List Nat) : Nat := l.foldr (fun a b => max (a + 1) b) 3

theorem above_lt (l : List Nat) : ∀ n ∈ l, n < above l := by
  induction l with
  | nil => simp
  | cons a l ih =>
    intro n hn
    simp only [above, List.foldr_cons]
    rcases List.mem_cons.mp hn with rfl | hn
    · exact Nat.lt_of_lt_of_le (Nat.lt_succ_self _) (Nat.le_max_left _ _)
    · exact Nat.lt_of_lt_of_le (ih n hn) (Nat.le_max_right _ _)

theorem above_fresh : Fresh above := fun l h => Nat.lt_irrefl _ (above_lt l _ h)

/-- Everything succeeds. -/
def calls : Calls := ⟨true, true, true, true, true⟩

/-- A program with BTF, a kconfig map, a kernel variable and two kernel functions in modules. -/
def big : Env := ⟨true, true, some (some 1), some [20], true, some [21, 22], true, .kernel (some (some 23)), 2, true⟩

/-- Replacing a function of the first program. -/
def ext (p : Program) : Env := ⟨true, true, some none, some [], true, some [], true, .prog p true true true calls, 0, true⟩

/-- A history: load, load an extension, look up by ID, use handles, clone, close. -/
def ops : List Op :=
  [.load 7 big, .load 8 (ext ⟨some 9, 7, some (some 3)⟩), .load 9 { big with accepted := false }, .handle 0 calls, .fromID 7 true true, .setHandle 2 0 calls, .clone 2 calls]

/-- Closing everything. -/
def closing : List Op := [.closeProg 0 true, .closeProg 0 true, .closeProg 1 false, .closeProg 2 false, .closeProg 3 false, .closeHandle 0]

/-- The BTF of a program. -/
def exBtf (pid : Nat) : Nat := pid + 100

example : Legal exBtf above ⟨⟨[(0, .map 0)], false, []⟩, [], []⟩ (ops ++ closing) := by
  refine ⟨fun t r sp ty c h => (by cases h), fun t r sp ty c h => ?_, fun t r sp ty c h => (by cases h), trivial, trivial, trivial, trivial, trivial, trivial, trivial, trivial, trivial, trivial, trivial⟩
  cases h
  decide
example : (run exBtf above ⟨⟨[(0, .map 0)], false, []⟩, [], []⟩ ops).st.table.length = 10 := by decide
example : owners (run exBtf above ⟨⟨[(0, .map 0)], false, []⟩, [], []⟩ (ops ++ closing)) = [] := by decide
example : (run exBtf above ⟨⟨[(0, .map 0)], false, []⟩, [], []⟩ ops).st.loads.length = 7 := by decide

end Ebpf.ProgHandles
