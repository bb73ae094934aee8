import Verif.Spec.Probe
/-!
# C78: probe links own what they create
-/
namespace Ebpf.Probe
open Ebpf.ProbeSpec

section
variable {st0 st : St} {k : List Nat}

theorem creates_tick (h : Creates st0 st k) : Creates st0 st.tick k := ⟨h.grows, h.same, h.nodup, h.new, h.closed⟩

theorem creates_create (h : Creates st0 st k) (r : Res) : Creates st0 (st.create r) (st.res.length :: k) where
  grows := by have := h.grows; simp [St.create]; omega
  same n hn := by
    have := h.grows
    show (st.res ++ [r])[n]? = _
    rw [List.getElem?_append_left (by omega)]; exact h.same n hn
  nodup := by
    rw [List.nodup_cons]
    exact ⟨fun hm => by have := (h.new _ hm).2; omega, h.nodup⟩
  new n hn := by
    have hg := h.grows
    have : (st.create r).res.length = st.res.length + 1 := by simp [St.create]
    rw [this]
    rcases List.mem_cons.mp hn with e | hn
    · omega
    · have := h.new n hn; omega
  closed n := by
    have hl : (st.create r).res.length = st.res.length + 1 := by simp [St.create]
    have hc : (st.create r).closed = st.closed := rfl
    rw [hl, hc, h.closed n]
    congr 1
    by_cases e : n = st.res.length
    · rw [if_neg (by rw [e]; omega), if_neg (by rw [e]; simp)]
    · have : (st0.res.length ≤ n ∧ n < st.res.length ∧ n ∉ k) ↔ (st0.res.length ≤ n ∧ n < st.res.length + 1 ∧ n ∉ st.res.length :: k) := by
        rw [List.mem_cons, not_or]
        constructor
        · rintro ⟨a, b, c⟩; exact ⟨a, by omega, e, c⟩
        · rintro ⟨a, b, _, c⟩; exact ⟨a, by omega, c⟩
      by_cases h1 : st0.res.length ≤ n ∧ n < st.res.length ∧ n ∉ k
      · rw [if_pos h1, if_pos (this.mp h1)]
      · rw [if_neg h1, if_neg (fun h => h1 (this.mpr h))]

theorem creates_close {n : Nat} (h : Creates st0 st (n :: k)) : Creates st0 (st.close n) k where
  grows := h.grows
  same := h.same
  nodup := (List.nodup_cons.mp h.nodup).2
  new m hm := h.new m (List.mem_cons_of_mem _ hm)
  closed m := by
    have hl : (st.close n).res = st.res := rfl
    have hc : (st.close n).closed = n :: st.closed := rfl
    have hnk := (List.nodup_cons.mp h.nodup).1
    have hn := h.new n List.mem_cons_self
    rw [hl, hc, List.count_cons, h.closed m]
    by_cases e : n = m
    · subst e
      have c1 : (if st0.res.length ≤ n ∧ n < st.res.length ∧ n ∉ n :: k then 1 else 0) = 0 := if_neg (by simp)
      have c2 : (if st0.res.length ≤ n ∧ n < st.res.length ∧ n ∉ k then 1 else 0) = 1 := if_pos ⟨hn.1, hn.2, hnk⟩
      rw [c1, c2]
      simp
    · have hbeq : (n == m) = false := by simpa using e
      rw [hbeq]
      simp only [Bool.false_eq_true, if_false]
      have : (st0.res.length ≤ m ∧ m < st.res.length ∧ m ∉ n :: k) ↔ (st0.res.length ≤ m ∧ m < st.res.length ∧ m ∉ k) := by
        rw [List.mem_cons, not_or]
        exact ⟨fun ⟨a, b, _, c⟩ => ⟨a, b, c⟩, fun ⟨a, b, c⟩ => ⟨a, b, fun x => e x.symm, c⟩⟩
      by_cases h1 : st0.res.length ≤ m ∧ m < st.res.length ∧ m ∉ n :: k
      · rw [if_pos h1, if_pos (this.mp h1)]
      · rw [if_neg h1, if_neg (fun h => h1 (this.mpr h))]

theorem creates_perm {k' : List Nat} (h : Creates st0 st k) (hp : k.Perm k') : Creates st0 st k' where
  grows := h.grows
  same := h.same
  nodup := hp.nodup_iff.mp h.nodup
  new n hn := h.new n (hp.mem_iff.mpr hn)
  closed n := by
    rw [h.closed n]
    have : n ∈ k ↔ n ∈ k' := hp.mem_iff
    by_cases h1 : n ∈ k
    · rw [if_neg (by simp [h1]), if_neg (by simp [this.mp h1])]
    · have h2 : n ∉ k' := fun h => h1 (this.mpr h)
      have e : (st0.res.length ≤ n ∧ n < st.res.length ∧ n ∉ k) ↔ (st0.res.length ≤ n ∧ n < st.res.length ∧ n ∉ k') :=
        ⟨fun ⟨a, b, _⟩ => ⟨a, b, h2⟩, fun ⟨a, b, _⟩ => ⟨a, b, h1⟩⟩
      by_cases h3 : st0.res.length ≤ n ∧ n < st.res.length ∧ n ∉ k
      · rw [if_pos h3, if_pos (e.mp h3)]
      · rw [if_neg h3, if_neg (fun h => h3 (e.mpr h))]

theorem creates_refl (st : St) : Creates st st [] where
  grows := Nat.le_refl _
  same _ _ := rfl
  nodup := List.nodup_nil
  new n hn := by cases hn
  closed n := by rw [if_neg (by omega)]; rfl

end

/-- Perf events as they come from opening. -/
def Fresh (p : PerfEvent) : Prop := p.live = true ∧ ∀ e, p.event = some e → e.live = true

section
variable {w : World} {st0 : St} (hw : Reliable w)
include hw

theorem removeEvent_ok (n : Nat) (g name : Bytes) (st : St) : removeEvent w n (Tracefs.removal g name) st = (.ok (), st.tick.close n) := by
  unfold removeEvent
  rw [hw.events]
  simp only [hw.remove]

theorem closeEvent_creates {st : St} {e : Event} {k : List Nat} (h : Creates st0 st (eventHolds e ++ k)) :
    Creates st0 (closeEvent w e st).2.2 k ∧ eventHolds (closeEvent w e st).2.1 = [] := by
  unfold closeEvent
  cases he : e.live with
  | false =>
    simp only [if_true]
    unfold eventHolds at h ⊢
    rw [he] at h ⊢
    exact ⟨h, rfl⟩
  | true =>
    simp only [Bool.true_eq_false, if_false, removeEvent_ok hw]
    unfold eventHolds at h ⊢
    rw [he] at h
    exact ⟨creates_close (creates_tick h), rfl⟩

theorem newEvent_creates {st st' : St} {a : ProbeArgs} {r : Except Err Event} {k : List Nat} (h : Creates st0 st k) (hr : newEvent w a st = (r, st')) :
    (∀ e, r = .error e → Creates st0 st' k) ∧ (∀ ev, r = .ok ev → Creates st0 st' (eventHolds ev ++ k) ∧ ev.live = true) := by
  have herr : ∀ (e : Err) (s : St), Creates st0 s k → (Except.error (α := Event) e, s) = (r, st') →
      (∀ e, r = .error e → Creates st0 st' k) ∧ (∀ ev, r = .ok ev → Creates st0 st' (eventHolds ev ++ k) ∧ ev.live = true) := by
    intro e s hs he
    cases he
    exact ⟨fun _ _ => hs, fun ev he => by cases he⟩
  unfold newEvent at hr
  simp only at hr
  split at hr
  · exact herr _ _ (creates_tick h) hr
  · rename_i hcf
    split at hr
    · exact herr _ _ (creates_tick (creates_tick h)) hr
    · split at hr
      · exact herr _ _ (creates_tick (creates_tick h)) hr
      · rename_i text htext
        split at hr
        · exact herr _ _ (creates_tick (creates_tick (creates_tick h))) hr
        · rename_i hwr
          have hc := creates_create (creates_tick (creates_tick h)) (.event a.uprobe text)
          have hvalid : ¬ (Tracefs.validIdentifier a.group = false ∨ Tracefs.validIdentifier (Tracefs.sanitizeIdentifier a.symbol) = false) := by
            intro hv
            unfold checkFree eventID at hcf
            rw [if_pos hv] at hcf
            cases hcf
          have hclk : (st.tick.tick.create (.event a.uprobe text)).clock = st.tick.tick.clock + 1 := rfl
          unfold finishEvent eventID at hr
          rw [if_neg hvalid, hclk] at hr
          rcases hw.id _ a text htext hwr with ⟨id, hid, hok⟩ | ⟨hm, hne⟩
          · rw [hok] at hr
            simp only at hr
            cases hr
            refine ⟨(by intro e he; cases he), fun ev he => ?_⟩
            cases he
            refine ⟨?_, by simpa using hid⟩
            unfold eventHolds
            simp only [ne_eq, hid, not_false_eq_true, decide_true, if_true]
            exact creates_tick hc
          · rw [hne] at hr
            simp only [ne_eq, hm, not_false_eq_true, and_self, if_true] at hr
            unfold spurious at hr
            rw [removeEvent_ok hw] at hr
            exact herr _ _ (creates_close (creates_tick (creates_tick hc))) hr

theorem closePerf_creates {st : St} {p : PerfEvent} {k : List Nat} (h : Creates st0 st (perfHolds p ++ k)) (hl : p.live = false → perfHolds p = []) :
    Creates st0 (closePerf w p st).2.2 k ∧ perfHolds (closePerf w p st).2.1 = [] := by
  unfold closePerf
  cases hp : p.live with
  | false =>
    simp only [if_true]
    rw [hl hp] at h
    exact ⟨h, hl hp⟩
  | true =>
    simp only [Bool.true_eq_false, if_false, hw.close]
    unfold perfHolds at h ⊢
    rw [hp] at h
    cases he : p.event with
    | none =>
      rw [he] at h
      exact ⟨creates_close h, rfl⟩
    | some ev =>
      rw [he] at h
      simp only at h ⊢
      obtain ⟨h1, h2⟩ := closeEvent_creates hw (creates_close h : Creates st0 (st.close p.n) (eventHolds ev ++ k))
      refine ⟨h1, ?_⟩
      simpa using h2

omit hw in
theorem pmuProbe_creates {st st' : St} {a : ProbeArgs} {r : Except Err PerfEvent} {k : List Nat} (h : Creates st0 st k) (hr : pmuProbe w a st = (r, st')) :
    (∀ e, r = .error e → Creates st0 st' k) ∧ (∀ p, r = .ok p → Creates st0 st' (perfHolds p ++ k) ∧ Fresh p) := by
  have herr : ∀ (e : Err) (s : St), Creates st0 s k → (Except.error (α := PerfEvent) e, s) = (r, st') →
      (∀ e, r = .error e → Creates st0 st' k) ∧ (∀ p, r = .ok p → Creates st0 st' (perfHolds p ++ k) ∧ Fresh p) := by
    intro e s hs he
    cases he
    exact ⟨fun _ _ => hs, fun ev he => by cases he⟩
  unfold pmuProbe at hr
  split at hr
  · exact herr _ _ (creates_tick h) hr
  · exact herr _ _ (creates_tick h) hr
  · split at hr
    · exact herr _ _ (creates_tick h) hr
    · split at hr
      · exact herr _ _ (creates_tick h) hr
      · split at hr
        · exact herr _ _ (creates_tick (creates_tick h)) hr
        · rename_i attr _ _ _
          cases hr
          refine ⟨(by intro e he; cases he), fun p he => ?_⟩
          cases he
          exact ⟨creates_create (creates_tick h) (.perf attr), rfl, (by intro e he; cases he)⟩

theorem tracefsProbe_creates {st st' : St} {a : ProbeArgs} {r : Except Err PerfEvent} {k : List Nat} (h : Creates st0 st k) (hr : tracefsProbe w a st = (r, st')) :
    (∀ e, r = .error e → Creates st0 st' k) ∧ (∀ p, r = .ok p → Creates st0 st' (perfHolds p ++ k) ∧ Fresh p) := by
  have herr : ∀ (e : Err) (s : St), Creates st0 s k → (Except.error (α := PerfEvent) e, s) = (r, st') →
      (∀ e, r = .error e → Creates st0 st' k) ∧ (∀ p, r = .ok p → Creates st0 st' (perfHolds p ++ k) ∧ Fresh p) := by
    intro e s hs he
    cases he
    exact ⟨fun _ _ => hs, fun ev he => by cases he⟩
  unfold tracefsProbe at hr
  split at hr
  · exact herr _ _ (creates_tick h) hr
  · split at hr
    · exact herr _ _ (creates_tick h) hr
    · split at hr
      · rename_i e s hn
        exact herr _ _ ((newEvent_creates hw (creates_tick h) hn).1 e rfl) hr
      · rename_i ev s hn
        obtain ⟨h1, h2⟩ := (newEvent_creates hw (creates_tick h) hn).2 ev rfl
        split at hr
        · exact herr _ _ (closeEvent_creates hw (creates_tick h1)).1 hr
        · cases hr
          refine ⟨(by intro e he; cases he), fun p he => ?_⟩
          cases he
          exact ⟨creates_create h1 _, rfl, (by intro e he; cases he; exact h2)⟩

omit hw in
/-- Trying again with a prefix. -/
theorem withPrefix_creates {f : ProbeArgs → St → Except Err PerfEvent × St}
    (hf : ∀ (st st' : St) (a : ProbeArgs) (r : Except Err PerfEvent) (k : List Nat), Creates st0 st k → f a st = (r, st') →
      (∀ e, r = .error e → Creates st0 st' k) ∧ (∀ p, r = .ok p → Creates st0 st' (perfHolds p ++ k) ∧ Fresh p))
    {st st' : St} {a : ProbeArgs} {r : Except Err PerfEvent} {k : List Nat} (h : Creates st0 st k) (hr : withPrefix w f a st = (r, st')) :
    (∀ e, r = .error e → Creates st0 st' k) ∧ (∀ p, r = .ok p → Creates st0 st' (perfHolds p ++ k) ∧ Fresh p) := by
  unfold withPrefix at hr
  split at hr
  · rename_i p s he
    cases hr
    exact hf _ _ _ _ _ h he
  · rename_i e s he
    split at hr
    · exact hf _ _ _ _ _ ((hf _ _ _ _ _ h he).1 e rfl) hr
    · cases hr
      exact hf _ _ _ _ _ h he

theorem kprobe_creates {st st' : St} {a : ProbeArgs} {r : Except Err PerfEvent} {k : List Nat} (h : Creates st0 st k) (hr : kprobe w a st = (r, st')) :
    (∀ e, r = .error e → Creates st0 st' k) ∧ (∀ p, r = .ok p → Creates st0 st' (perfHolds p ++ k) ∧ Fresh p) := by
  unfold kprobe at hr
  split at hr
  · cases hr; exact ⟨fun _ _ => h, fun p he => by cases he⟩
  · split at hr
    · rename_i p s he
      cases hr
      exact withPrefix_creates (fun _ _ _ _ _ => pmuProbe_creates) h he
    · rename_i s he
      have h1 := (withPrefix_creates (fun _ _ _ _ _ => pmuProbe_creates) h he).1 _ rfl
      exact withPrefix_creates (fun _ _ _ _ _ => tracefsProbe_creates hw) h1 hr
    · rename_i e s _ he
      cases hr
      exact withPrefix_creates (fun _ _ _ _ _ => pmuProbe_creates) h he

theorem uprobe_creates {st st' : St} {a : ProbeArgs} {r : Except Err PerfEvent} {k : List Nat} (h : Creates st0 st k) (hr : uprobe w a st = (r, st')) :
    (∀ e, r = .error e → Creates st0 st' k) ∧ (∀ p, r = .ok p → Creates st0 st' (perfHolds p ++ k) ∧ Fresh p) := by
  unfold uprobe at hr
  split at hr
  · rename_i p s he
    cases hr
    exact pmuProbe_creates h he
  · rename_i s he
    exact tracefsProbe_creates hw ((pmuProbe_creates h he).1 _ rfl) hr
  · rename_i e s _ he
    cases hr
    exact pmuProbe_creates h he

omit hw in
theorem tracepoint_creates {st st' : St} {g n : Bytes} {r : Except Err PerfEvent} {k : List Nat} (h : Creates st0 st k) (hr : tracepoint w g n st = (r, st')) :
    (∀ e, r = .error e → Creates st0 st' k) ∧ (∀ p, r = .ok p → Creates st0 st' (perfHolds p ++ k) ∧ Fresh p) := by
  unfold tracepoint at hr
  split at hr
  · cases hr; exact ⟨fun _ _ => h, fun p he => by cases he⟩
  · split at hr
    · cases hr; exact ⟨fun _ _ => creates_tick h, fun p he => by cases he⟩
    · split at hr
      · cases hr; exact ⟨fun _ _ => creates_tick (creates_tick h), fun p he => by cases he⟩
      · cases hr
        refine ⟨(by intro e he; cases he), fun p he => ?_⟩
        cases he
        exact ⟨creates_create (creates_tick h) _, rfl, (by intro e he; cases he)⟩

/-- Links as they come from attaching. -/
def WellFormed (l : Link) : Prop :=
  (l.perf.live = false → perfHolds l.perf = []) ∧ (l.perf.live = true → ∀ e, l.perf.event = some e → e.live = true) ∧ (l.link.isSome = true → l.linkLive = l.perf.live)

theorem attachProbe_creates {open_ : St → Except Err PerfEvent × St} (hopen : ∀ (st st' : St) (r : Except Err PerfEvent) (k : List Nat), Creates st0 st k → open_ st = (r, st') →
      (∀ e, r = .error e → Creates st0 st' k) ∧ (∀ p, r = .ok p → Creates st0 st' (perfHolds p ++ k) ∧ Fresh p))
    {st st' : St} {cookie : Nat} {r : Except Err Link} {k : List Nat} (h : Creates st0 st k) (hr : attachProbe w open_ cookie st = (r, st')) :
    (∀ e, r = .error e → Creates st0 st' k) ∧ (∀ l, r = .ok l → Creates st0 st' (linkHolds l ++ k) ∧ WellFormed l) := by
  unfold attachProbe at hr
  split at hr
  · rename_i e s he
    cases hr
    exact ⟨fun _ _ => (hopen _ _ _ _ h he).1 e rfl, fun l hl => by cases hl⟩
  · rename_i p s he
    obtain ⟨h1, h2⟩ := (hopen _ _ _ _ h he).2 p rfl
    have hwf : p.live = false → perfHolds p = [] := by intro e; rw [h2.1] at e; cases e
    split at hr
    · rename_i l s2 ha
      cases hr
      refine ⟨(by intro e hl; cases hl), fun l hl => ?_⟩
      cases hl
      unfold attach at ha
      split at ha
      · split at ha
        · cases ha
        · cases ha
          exact ⟨creates_create h1 _, hwf, fun _ => h2.2, fun _ => h2.1.symm⟩
      · split at ha
        · cases ha
        · split at ha
          · cases ha
          · split at ha
            · cases ha
            · cases ha
              exact ⟨creates_tick (creates_tick h1), hwf, fun _ => h2.2, (by intro e; cases e)⟩
    · rename_i e s2 ha
      cases hr
      refine ⟨fun _ _ => ?_, fun l hl => by cases hl⟩
      refine (closePerf_creates hw ?_ hwf).1
      unfold attach at ha
      split at ha
      · split at ha
        · cases ha; exact creates_tick h1
        · cases ha
      · split at ha
        · cases ha; exact h1
        · split at ha
          · cases ha; exact creates_tick h1
          · split at ha
            · cases ha; exact creates_tick (creates_tick h1)
            · cases ha

omit hw in
theorem closePerf_dead (p : PerfEvent) (st : St) : (closePerf w p st).2.1.live = false := by
  unfold closePerf
  split
  · assumption
  · split
    · rfl
    · split
      · rfl
      · rfl

theorem closeLink_creates {st : St} {l : Link} {k : List Nat} (hwf : WellFormed l) (h : Creates st0 st (linkHolds l ++ k)) :
    Creates st0 (closeLink w l st).2.2 k ∧ linkHolds (closeLink w l st).2.1 = [] ∧ WellFormed (closeLink w l st).2.1 := by
  unfold closeLink
  unfold linkHolds at h ⊢
  cases hl : l.link with
  | none =>
    rw [hl] at h
    simp only [List.nil_append] at h ⊢
    obtain ⟨h1, h2⟩ := closePerf_creates hw h hwf.1
    exact ⟨h1, h2, fun _ => h2, (fun e => by rw [closePerf_dead] at e; cases e), (by intro e; cases e)⟩
  | some n =>
    rw [hl] at h
    simp only at h ⊢
    cases hv : l.linkLive with
    | false =>
      have hp := hwf.1 (by rw [← hwf.2.2 (by rw [hl]; rfl)]; exact hv)
      rw [hv, hp] at h
      simp only [if_true, hl, hv, hp]
      exact ⟨h, rfl, hwf⟩
    | true =>
      rw [hv] at h
      simp only [Bool.true_eq_false, if_false, hw.close]
      obtain ⟨h1, h2⟩ := closePerf_creates hw (creates_close h : Creates st0 (st.close n) (perfHolds l.perf ++ k)) hwf.1
      refine ⟨h1, ?_, fun _ => h2, (fun e => by rw [closePerf_dead] at e; cases e), fun _ => (closePerf_dead _ _).symm⟩
      simp [h2]

theorem open_creates (open_ : St → Except Err PerfEvent × St) (ho : (∃ a, open_ = kprobe w a) ∨ (∃ a, open_ = uprobe w a) ∨ (∃ g n, open_ = tracepoint w g n))
    (st st' : St) (r : Except Err PerfEvent) (k : List Nat) (hc : Creates st0 st k) (hr : open_ st = (r, st')) :
    (∀ e, r = .error e → Creates st0 st' k) ∧ (∀ p, r = .ok p → Creates st0 st' (perfHolds p ++ k) ∧ Fresh p) := by
  rcases ho with ⟨a, rfl⟩ | ⟨a, rfl⟩ | ⟨g, n, rfl⟩
  · exact kprobe_creates hw hc hr
  · exact uprobe_creates hw hc hr
  · exact tracepoint_creates hc hr

theorem history {t : Nat} {s : St × List Link} (h : Reachable w t s) : Creates ⟨t, [], []⟩ s.1 (s.2.flatMap linkHolds) ∧ ∀ l ∈ s.2, WellFormed l := by
  induction h with
  | init => exact ⟨creates_refl _, by intro l hl; cases hl⟩
  | @step s s' _ hs ih =>
    cases hs with
    | attached open_ cookie ho ha =>
      obtain ⟨h1, h2⟩ := (attachProbe_creates hw (open_creates hw open_ ho) ih.1 ha).2 _ rfl
      refine ⟨h1, fun x hx => ?_⟩
      rcases List.mem_cons.mp hx with e | hx
      · rw [e]; exact h2
      · exact ih.2 x hx
    | failed open_ cookie ho ha => exact ⟨(attachProbe_creates hw (open_creates hw open_ ho) ih.1 ha).1 _ rfl, ih.2⟩
    | @closed st pre l post r l' st' hc =>
      have hperm : ((pre ++ l :: post).flatMap linkHolds).Perm (linkHolds l ++ (pre.flatMap linkHolds ++ post.flatMap linkHolds)) := by
        rw [List.flatMap_append, List.flatMap_cons, ← List.append_assoc, ← List.append_assoc]
        exact List.Perm.append_right _ List.perm_append_comm
      have hcl := closeLink_creates hw (ih.2 l (by simp)) (creates_perm ih.1 hperm)
      rw [hc] at hcl
      obtain ⟨h1, h2, h3⟩ := hcl
      refine ⟨?_, fun x hx => ?_⟩
      · show Creates _ st' ((pre ++ l' :: post).flatMap linkHolds)
        rw [List.flatMap_append, List.flatMap_cons, h2, List.nil_append]
        exact h1
      · rcases List.mem_append.mp hx with hx | hx
        · exact ih.2 x (by simp [hx])
        · rcases List.mem_cons.mp hx with e | hx
          · rw [e]; exact h3
          · exact ih.2 x (by simp [hx])

/-- **C78 (1/5)** Attaching a kprobe, uprobe or tracepoint leaves nothing behind if it fails, and if it succeeds everything that was created and not removed is held by the link. -/
theorem attach_owned (open_ : St → Except Err PerfEvent × St) (ho : (∃ a, open_ = kprobe w a) ∨ (∃ a, open_ = uprobe w a) ∨ (∃ g n, open_ = tracepoint w g n)) (cookie : Nat) (st : St) :
    match attachProbe w open_ cookie st with
    | (.error _, st') => Creates st st' []
    | (.ok l, st') => Creates st st' (linkHolds l) := by
  have h := fun r st' => attachProbe_creates hw (open_creates hw open_ ho) (creates_refl st) (cookie := cookie) (r := r) (st' := st')
  split
  · rename_i e st' hr
    exact (h _ _ hr).1 e rfl
  · rename_i l st' hr
    have := ((h _ _ hr).2 l rfl).1
    rwa [List.append_nil] at this

/-- **C78 (2/5)** In every history of attaching and closing, on a kernel where cleaning up works: what is open is held by exactly one link, and everything else that was ever created was closed exactly once. -/
theorem probes_owned_partial {t : Nat} {st : St} {links : List Link} (h : Reachable w t (st, links)) :
    (links.flatMap linkHolds).Nodup ∧
    (∀ n, n < st.res.length → st.closed.count n = if n ∈ links.flatMap linkHolds then 0 else 1) ∧
    (∀ n, st.res.length ≤ n → st.closed.count n = 0 ∧ n ∉ links.flatMap linkHolds) := by
  have hc := (history hw h).1
  refine ⟨hc.nodup, fun n hn => ?_, fun n hn => ?_⟩
  · rw [hc.closed n]
    show 0 + _ = _
    by_cases hm : n ∈ links.flatMap linkHolds
    · rw [if_pos hm, if_neg (fun x => x.2.2 hm)]
    · rw [if_neg hm, if_pos ⟨Nat.zero_le _, hn, hm⟩]
  · refine ⟨?_, fun hm => ?_⟩
    · rw [hc.closed n, if_neg (fun x => by have : n < st.res.length := x.2.1; omega)]
      rfl
    · have : n < st.res.length := (hc.new n hm).2
      omega

/-- **C78 (3/5)** Close closes exactly what the link holds, each once, and leaves it holding nothing; closing again returns an error and does nothing. -/
theorem close_releases {t : Nat} {st st' : St} {pre post : List Link} {l l' : Link} {r : Except Err Unit} (h : Reachable w t (st, pre ++ l :: post)) (hr : closeLink w l st = (r, l', st')) :
    Closes st st' (linkHolds l) ∧ linkHolds l' = [] ∧ (linkHolds l ≠ [] → r = .ok ()) ∧ ∀ st2, closeLink w l' st2 = (.error .closed, l', st2) := by
  have hwf := (history hw h).2 l (by simp)
  have hev : ∀ (e : Event) (s : St), (closeEvent w e s).2.1.live = false ∧ (e.live = true → (closeEvent w e s).1 = .ok ()) ∧ (closeEvent w e s).2.2.res = s.res ∧
      ∀ n, (closeEvent w e s).2.2.closed.count n = s.closed.count n + (eventHolds e).count n := by
    intro e s
    unfold closeEvent eventHolds
    cases he : e.live with
    | false => simp [he]
    | true =>
      rw [if_neg (by simp), removeEvent_ok hw]
      refine ⟨rfl, fun _ => rfl, rfl, fun n => ?_⟩
      show (e.n :: s.closed).count n = _ + List.count n [e.n]
      rw [List.count_cons, List.count_singleton]
  have hperf : ∀ (p : PerfEvent) (s : St), (p.live = false → perfHolds p = []) →
      (closePerf w p s).2.1.live = false ∧ perfHolds (closePerf w p s).2.1 = [] ∧ (p.live = true → (∀ e, p.event = some e → e.live = true) → (closePerf w p s).1 = .ok ()) ∧ (closePerf w p s).2.2.res = s.res ∧
      ∀ n, (closePerf w p s).2.2.closed.count n = s.closed.count n + (perfHolds p).count n := by
    intro p s hp
    unfold closePerf
    cases hv : p.live with
    | false =>
      rw [if_pos rfl, hp hv]
      exact ⟨hv, rfl, (by intro e; cases e), rfl, fun n => rfl⟩
    | true =>
      rw [if_neg (by simp), hw.close]
      cases he : p.event with
      | none =>
        refine ⟨rfl, by unfold perfHolds; simp [he], fun _ _ => rfl, rfl, fun n => ?_⟩
        unfold perfHolds
        rw [he, hv]
        show (p.n :: s.closed).count n = _ + List.count n [p.n]
        rw [List.count_cons, List.count_singleton]
      | some ev =>
        obtain ⟨h1, h2, h3, h4⟩ := hev ev (s.close p.n)
        refine ⟨rfl, by unfold perfHolds eventHolds; simp [h1], fun _ hl => h2 (hl ev rfl), h3, fun n => ?_⟩
        rw [h4 n]
        unfold perfHolds
        rw [he, hv]
        show (p.n :: s.closed).count n + _ = _ + ([p.n] ++ eventHolds ev).count n
        rw [List.count_append, List.count_cons, List.count_singleton]
        omega
  obtain ⟨w1, w2, w3⟩ := hwf
  unfold closeLink at hr
  cases hl : l.link with
  | none =>
    rw [hl] at hr
    simp only at hr
    obtain ⟨h1, h2, h3, h4, h5⟩ := hperf l.perf st w1
    cases hr
    unfold linkHolds
    rw [hl]
    refine ⟨⟨h4, h5⟩, h2, fun hne => ?_, fun st2 => ?_⟩
    · cases hv : l.perf.live with
      | false => exact absurd (w1 hv) hne
      | true => exact h3 hv (w2 hv)
    · unfold closeLink
      simp only
      have hd : ∀ (q : PerfEvent) (s : St), q.live = false → closePerf w q s = (.error .closed, q, s) := by
        intro q s hq
        unfold closePerf
        rw [if_pos hq]
      rw [hd _ _ h1]
  | some n =>
    rw [hl] at hr
    simp only at hr
    have hlp := w3 (by rw [hl]; rfl)
    cases hv : l.linkLive with
    | false =>
      rw [if_pos hv] at hr
      cases hr
      have hp := w1 (by rw [← hlp]; exact hv)
      have hh : linkHolds l = [] := by unfold linkHolds; rw [hl, hv, hp]; rfl
      rw [hh]
      refine ⟨⟨rfl, fun _ => rfl⟩, rfl, (fun hne => absurd rfl hne), fun st2 => ?_⟩
      unfold closeLink
      rw [hl]
      simp only
      rw [if_pos hv]
    | true =>
      rw [if_neg (by rw [hv]; simp), hw.close] at hr
      simp only at hr
      obtain ⟨h1, h2, h3, h4, h5⟩ := hperf l.perf (st.close n) w1
      have hpl : l.perf.live = true := by rw [← hlp]; exact hv
      cases hr
      unfold linkHolds
      rw [hl, hv]
      refine ⟨⟨h4, fun m => ?_⟩, (by simp [h2]), fun _ => h3 hpl (w2 hpl), fun st2 => ?_⟩
      · rw [h5 m]
        show (n :: st.closed).count m + _ = _ + ([n] ++ perfHolds l.perf).count m
        rw [List.count_append, List.count_cons, List.count_singleton]
        omega
      · unfold closeLink
        rfl

end


section
variable {w : World}

theorem cpuFor_spec (pid : Int) : cpuFor pid = if pid = -1 then 0 else -1 := by
  unfold cpuFor
  by_cases h : pid = -1
  · rw [if_neg (fun e => e h), if_pos h]
  · rw [if_pos h, if_neg h]

theorem pmuProbe_traces {a : ProbeArgs} {st st' : St} {p : PerfEvent} (hr : pmuProbe w a st = (.ok p, st')) : Traces w st' p a := by
  unfold pmuProbe at hr
  split at hr
  · cases hr
  · cases hr
  · rename_i type htype
    split at hr
    · cases hr
    · rename_i hma
      split at hr
      · cases hr
      · rename_i attr hattr
        split at hr
        · cases hr
        · cases hr
          left
          unfold pmuAttr at hattr
          split at hattr
          · cases hattr
          · rename_i bit hbit
            refine ⟨type, bit, _, by omega, htype, fun hret => ?_, rfl, rfl, ?_⟩
            · rw [if_pos hret] at hbit; exact hbit
            · show (st.res ++ [Res.perf attr])[st.res.length]? = _
              simp only [List.getElem?_concat_length, Option.some.injEq, Res.perf.injEq]
              simp only [cpuFor_spec] at hattr
              split at hattr
              · rename_i hu
                simp only [hu, if_true]
                cases hattr; rfl
              · rename_i hu
                simp only [hu, if_false]
                cases hattr
                simp

theorem newEvent_ok {a : ProbeArgs} {st st' : St} {ev : Event} (hr : newEvent w a st = (.ok ev, st')) :
    ∃ text t, Tracefs.command a.text = some text ∧ ev.n = st.res.length ∧ st'.res = st.res ++ [.event a.uprobe text] ∧ w.eventId t a.group (Tracefs.sanitizeIdentifier a.symbol) = .ok ev.id := by
  unfold newEvent at hr
  simp only at hr
  split at hr
  · cases hr
  · split at hr
    · cases hr
    · split at hr
      · cases hr
      · rename_i text htext
        split at hr
        · cases hr
        · unfold finishEvent at hr
          split at hr
          · rename_i id hid
            cases hr
            refine ⟨text, (st.tick.tick.create (.event a.uprobe text)).clock, htext, rfl, rfl, ?_⟩
            unfold eventID at hid
            split at hid
            · cases hid
            · exact hid
          · split at hr
            · split at hr
              · cases hr
              · cases hr
            · cases hr

theorem tracefsProbe_traces {a : ProbeArgs} {st st' : St} {p : PerfEvent} (hr : tracefsProbe w a st = (.ok p, st')) : Traces w st' p a := by
  unfold tracefsProbe at hr
  split at hr
  · cases hr
  · rename_i random hrand
    split at hr
    · cases hr
    · rename_i group hgroup
      split at hr
      · cases hr
      · rename_i ev s hn
        split at hr
        · cases hr
        · cases hr
          obtain ⟨text, t, h1, h2, h3, h4⟩ := newEvent_ok hn
          right
          refine ⟨ev, text, t, group, _, random, rfl, hgroup, ?_, h1, ?_, h4, ?_⟩
          · intro hg; rw [if_pos hg]
          · show (s.res ++ [_])[ev.n]? = _
            rw [h3, h2]
            simp [St.tick]
          · show (s.res ++ [_])[s.res.length]? = _
            rw [List.getElem?_concat_length, cpuFor_spec]

theorem withPrefix_traces {f : ProbeArgs → St → Except Err PerfEvent × St} (hf : ∀ a st st' p, f a st = (.ok p, st') → Traces w st' p a) {a : ProbeArgs} {st st' : St} {p : PerfEvent}
    (hr : withPrefix w f a st = (.ok p, st')) : Traces w st' p a ∨ (w.prefix_ ≠ [] ∧ Traces w st' p { a with symbol := w.prefix_ ++ a.symbol }) := by
  unfold withPrefix at hr
  split at hr
  · rename_i p2 s he
    cases hr
    exact .inl (hf _ _ _ _ he)
  · split at hr
    · rename_i hc
      exact .inr ⟨hc.2, hf _ _ _ _ hr⟩
    · cases hr

/-- Attaching keeps what there is, and gives the program the cookie. -/
theorem attach_ok {p : PerfEvent} {cookie : Nat} {st st' : St} {l : Link} (hr : attach w p cookie st = (.ok l, st')) :
    l.perf = p ∧ (∀ (n : Nat) (r : Res), st.res[n]? = some r → st'.res[n]? = some r) ∧ (match l.link with
      | some n => st'.res[n]? = some (.link p.n cookie)
      | none => cookie = 0) := by
  unfold attach at hr
  split at hr
  · split at hr
    · cases hr
    · cases hr
      refine ⟨rfl, fun n r h => ?_, ?_⟩
      · show (st.res ++ [_])[n]? = _
        have := (List.getElem?_eq_some_iff.mp h).1
        rw [List.getElem?_append_left this]; exact h
      · show (st.res ++ [_])[st.res.length]? = _
        simp
  · split at hr
    · cases hr
    · rename_i hck
      split at hr
      · cases hr
      · split at hr
        · cases hr
        · cases hr
          exact ⟨rfl, fun _ _ h => h, by simpa using hck⟩

theorem traces_mono {st st' : St} (h : ∀ (n : Nat) (r : Res), st.res[n]? = some r → st'.res[n]? = some r) {p : PerfEvent} {a : ProbeArgs} (ht : Traces w st p a) : Traces w st' p a := by
  rcases ht with ⟨type, bit, config, h0, h1, h2, h3, h4, h5⟩ | ⟨ev, text, t, group, pre, random, h1, h2, h3, h4, h5, h6, h7⟩
  · exact .inl ⟨type, bit, config, h0, h1, h2, h3, h4, h _ _ h5⟩
  · exact .inr ⟨ev, text, t, group, pre, random, h1, h2, h3, h4, h _ _ h5, h6, h _ _ h7⟩

theorem attachProbe_ok {open_ : St → Except Err PerfEvent × St} {cookie : Nat} {st st' : St} {l : Link} (hr : attachProbe w open_ cookie st = (.ok l, st')) :
    ∃ st1, open_ st = (.ok l.perf, st1) ∧ attach w l.perf cookie st1 = (.ok l, st') := by
  unfold attachProbe at hr
  split at hr
  · cases hr
  · rename_i p s he
    split at hr
    · rename_i l2 s2 ha
      cases hr
      have := (attach_ok ha).1
      subst this
      exact ⟨s, he, ha⟩
    · cases hr

/-- **C78 (4/5)** The program runs where it was asked to, on every kernel: a kprobe on the symbol, or on the symbol with the platform's prefix; with the offset, kind of probe, process and cookie that were given. -/
theorem kprobe_target {a : ProbeArgs} {cookie : Nat} {st st' : St} {l : Link} (hr : attachProbe w (kprobe w a) cookie st = (.ok l, st')) :
    (Traces w st' l.perf a ∨ (w.prefix_ ≠ [] ∧ Traces w st' l.perf { a with symbol := w.prefix_ ++ a.symbol })) ∧
    (match l.link with
      | some n => st'.res[n]? = some (.link l.perf.n cookie)
      | none => cookie = 0) := by
  obtain ⟨s, h1, h2⟩ := attachProbe_ok hr
  obtain ⟨h3, h4, h5⟩ := attach_ok h2
  refine ⟨?_, h5⟩
  have : Traces w s l.perf a ∨ (w.prefix_ ≠ [] ∧ Traces w s l.perf { a with symbol := w.prefix_ ++ a.symbol }) := by
    unfold kprobe at h1
    split at h1
    · cases h1
    · split at h1
      · rename_i p s2 he
        cases h1
        exact withPrefix_traces (fun _ _ _ _ => pmuProbe_traces) he
      · exact withPrefix_traces (fun _ _ _ _ => tracefsProbe_traces) h1
      · cases h1
  rcases this with h | ⟨h, h'⟩
  · exact .inl (traces_mono h4 h)
  · exact .inr ⟨h, traces_mono h4 h'⟩

/-- **C78 (4/5)** The same for uprobes. -/
theorem uprobe_target {a : ProbeArgs} {cookie : Nat} {st st' : St} {l : Link} (hr : attachProbe w (uprobe w a) cookie st = (.ok l, st')) :
    Traces w st' l.perf a ∧
    (match l.link with
      | some n => st'.res[n]? = some (.link l.perf.n cookie)
      | none => cookie = 0) := by
  obtain ⟨s, h1, h2⟩ := attachProbe_ok hr
  obtain ⟨h3, h4, h5⟩ := attach_ok h2
  refine ⟨traces_mono h4 ?_, h5⟩
  unfold uprobe at h1
  split at h1
  · rename_i p s2 he
    cases h1
    exact pmuProbe_traces he
  · exact tracefsProbe_traces h1
  · cases h1

/-- **C78 (4/5)** And for tracepoints: the perf event is the one whose ID the kernel gives for the group and name, on all processes. -/
theorem tracepoint_target {g n : Bytes} {cookie : Nat} {st st' : St} {l : Link} (hr : attachProbe w (tracepoint w g n) cookie st = (.ok l, st')) :
    (∃ t id, w.eventId t g n = .ok id ∧ st'.res[l.perf.n]? = some (.perf (.tracepoint id (-1) 0))) ∧
    (match l.link with
      | some n => st'.res[n]? = some (.link l.perf.n cookie)
      | none => cookie = 0) := by
  obtain ⟨s, h1, h2⟩ := attachProbe_ok hr
  obtain ⟨h3, h4, h5⟩ := attach_ok h2
  refine ⟨?_, h5⟩
  unfold tracepoint at h1
  split at h1
  · cases h1
  · split at h1
    · cases h1
    · rename_i id hid
      split at h1
      · cases h1
      · injection h1 with e1 e2
        injection e1 with e1
        unfold eventID at hid
        split at hid
        · cases hid
        · refine ⟨st.clock, id, hid, h4 _ _ ?_⟩
          rw [← e1, ← e2]
          show (st.res ++ [_])[st.res.length]? = _
          rw [List.getElem?_concat_length, cpuFor_spec]
          rfl

/-- **C78 (4/5)** The plain name wins: where the kernel has it, the prefixed one is not tried. -/
theorem kprobe_prefers_plain {a : ProbeArgs} {st st' : St} {p : PerfEvent} (hv : Tracefs.validSymbol a.symbol = true) (h : pmuProbe w a st = (.ok p, st')) : kprobe w a st = (.ok p, st') := by
  unfold kprobe withPrefix
  rw [if_neg (by rw [hv]; simp), h]

end

/-- **C78 (5/5)** Linux reads the reference counter of a uprobe from the upper 32 bits of the configuration and the kind of probe from the lower ones; below 2^32 it arrives there as it was given. -/
theorem refCtr_config (refCtr bit : Nat) (hr : refCtr < 2 ^ 32) (hb : bit < 32) (ret : Bool) :
    (((if ret then 1#64 <<< bit else 0#64) ||| (BitVec.ofNat 64 refCtr <<< 32)) >>> 32).toNat = refCtr ∧
    (((if ret then 1#64 <<< bit else 0#64) ||| (BitVec.ofNat 64 refCtr <<< 32)).toNat.testBit bit = ret) := by
  constructor
  · apply Nat.eq_of_testBit_eq
    intro i
    rw [← BitVec.getLsbD, BitVec.getLsbD_ushiftRight, BitVec.getLsbD_or, BitVec.getLsbD_shiftLeft]
    have h1 : (if ret then 1#64 <<< bit else 0#64).getLsbD (32 + i) = false := by
      cases ret
      · simp
      · simp only [if_true, BitVec.getLsbD_shiftLeft]
        have : 32 + i - bit ≠ 0 := by omega
        simp [BitVec.getLsbD_one, this]
    rw [h1, BitVec.getLsbD_ofNat]
    have h2 : 32 + i - 32 = i := by omega
    rw [h2]
    by_cases hi : i < 32
    · have a1 : 32 + i < 64 := by omega
      have a2 : ¬ 32 + i < 32 := by omega
      have a3 : i < 64 := by omega
      simp [a1, a2, a3]
    · have : refCtr.testBit i = false := Nat.testBit_lt_two_pow (Nat.lt_of_lt_of_le hr (Nat.pow_le_pow_right (by omega) (by omega)))
      rw [this]; simp
  · rw [← BitVec.getLsbD, BitVec.getLsbD_or, BitVec.getLsbD_shiftLeft]
    have a1 : bit < 32 := hb
    cases ret
    · simp [a1]
    · have a3 : bit < 64 := by omega
      simp [a1, a3]

/-- Larger ones are cut off silently: a counter at 2^32 + 8 is taken for one at 8. -/
theorem refCtr_truncated (refCtr : Nat) : BitVec.ofNat 64 (refCtr + 2 ^ 32) <<< 32 = BitVec.ofNat 64 refCtr <<< 32 := by
  apply BitVec.eq_of_toNat_eq
  simp only [BitVec.toNat_shiftLeft, BitVec.toNat_ofNat, Nat.shiftLeft_eq]
  omega

/-- Counterexample: a failing close(2) of the link leaves the perf event and the trace event behind for good: Close cannot be called again. -/
theorem close_error_leaks (w : World) (l : Link) (n : Nat) (st : St) (e : Err) (hl : l.link = some n) (hv : l.linkLive = true) (he : w.closeFd st.clock = .error e) :
    ∃ l' st', closeLink w l st = (.error e, l', st') ∧ linkHolds l' = perfHolds l.perf ∧ st'.closed = n :: st.closed ∧ ∀ st2, closeLink w l' st2 = (.error .closed, l', st2) := by
  refine ⟨{ l with linkLive := false }, st.close n, ?_, ?_, rfl, fun st2 => ?_⟩
  · unfold closeLink
    rw [hl]
    simp only
    rw [if_neg (by rw [hv]; simp), he]
  · unfold linkHolds
    simp [hl]
  · unfold closeLink
    simp only [hl]
    rfl

/-- "SyS". -/
def symA : Bytes := [0x53#8, 0x79#8, 0x53#8]

/-- A kprobe on SyS+4. -/
def argsA : ProbeArgs := ⟨false, symA, [], [], 4, 0, -1, 0, false⟩

/-- A kernel without the kprobe PMU. A new event does not exist at time 2 and has ID 7 later. -/
def worldA : World where
  pmuType _ := .error .notExist
  retBit _ := .error .notExist
  perfOpen _ _ := .ok ()
  eventId t _ _ := if t = 2 then .error .notExist else .ok 7
  openEvents _ := .ok ()
  write t text := if t = 1 ∧ text.head? ≠ some 0x2d#8 then .error .inval else .ok ()
  random _ := .ok [0x61#8]
  linkSupported := true
  linkCreate _ _ _ := .ok ()
  setBpf _ _ := .ok ()
  enable _ _ := .ok ()
  closeFd _ := .ok ()
  prefix_ := []

/-- The hypotheses are met: cleaning up works there. -/
theorem worldA_reliable : Reliable worldA where
  close _ := rfl
  events _ := rfl
  remove t g n := by
    show (if t = 1 ∧ _ then _ else _) = _
    rw [if_neg]
    rintro ⟨_, h⟩
    exact h rfl
  id t a text hc hwr := by
    left
    refine ⟨7, by decide, ?_⟩
    show (if t + 1 = 2 then _ else _) = _
    rw [if_neg]
    intro ht
    have ht : t = 1 := by omega
    subst ht
    have hh : text.head? ≠ some 0x2d#8 := by
      have hpre : ∀ (ret : Bool) (m : Int) (rest : Bytes), (Tracefs.probePrefix ret m ++ rest).head? ≠ some 0x2d#8 := by
        intro ret m rest
        unfold Tracefs.probePrefix
        split
        · split
          · simp
          · simp
        · simp
      unfold Tracefs.command at hc
      split at hc
      · split at hc
        · cases hc
        · cases hc
          simp only [List.append_assoc]
          exact hpre _ _ _
      · split at hc
        · cases hc
        · cases hc
          simp only [List.append_assoc]
          exact hpre _ _ _
    have : worldA.write 1 text = .error .inval := if_pos ⟨rfl, hh⟩
    rw [this] at hwr
    cases hwr

/-- The kprobe is attached there through a trace event: resources 0 (event), 1 (perf event) and 2 (link). -/
example : ∃ l st', attachProbe worldA (kprobe worldA argsA) 5 ⟨0, [], []⟩ = (.ok l, st') ∧ linkHolds l = [2, 1, 0] ∧ st'.res.length = 3 ∧ st'.closed = [] ∧
    (closeLink worldA l st').2.2.closed = [0, 1, 2] := by
  refine ⟨_, _, rfl, ?_⟩
  decide +kernel

/-- Counterexample: if the event is created but its ID cannot be read, it stays although attaching failed and every attempt to clean up would have succeeded. -/
theorem new_event_leaks : ∃ (w : World) (a : ProbeArgs) (st' : St) (e : Err), (∀ t, w.closeFd t = .ok ()) ∧ (∀ t, w.openEvents t = .ok ()) ∧ (∀ t text, w.write t text = .ok ()) ∧
    attachProbe w (kprobe w a) 0 ⟨0, [], []⟩ = (.error e, st') ∧ st'.res.length = 1 ∧ st'.closed = [] := by
  refine ⟨{ worldA with eventId := fun _ _ _ => .error .notExist, write := fun _ _ => .ok () }, argsA, _, _, fun _ => rfl, fun _ => rfl, fun _ _ => rfl, rfl, ?_⟩
  decide +kernel

end Ebpf.Probe
