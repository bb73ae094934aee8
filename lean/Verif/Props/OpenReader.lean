import Verif.Spec.OpenReader
/-! # C96: opening readers -/
namespace Ebpf.OpenReader
open Ebpf.OpenSpec

theorem mem_release (h : Nat) (k : K) (p : Nat × Obj) : p ∈ (release h k).live ↔ p ∈ k.live ∧ p.1 ≠ h := by
  simp [release]

theorem release_next (h : Nat) (k : K) : (release h k).next = k.next := rfl

theorem opened_nil (k : K) : Opened k k [] := ⟨by simp, by simp, by simp⟩

/-- Composition: opening more. -/
theorem opened_trans {k k1 k2 : K} {n1 n2 : List (Nat × Obj)} (hn : k.next ≤ k1.next) (h1 : Opened k k1 n1) (h2 : Opened k1 k2 n2)
    (hlt : ∀ p ∈ n1, p.1 < k1.next) : Opened k k2 (n1 ++ n2) := by
  refine ⟨fun p => ?_, fun p hp => ?_, ?_⟩
  · rw [h2.1, h1.1]; simp only [List.mem_append]; constructor
    · rintro ((h | h) | h)
      · exact .inl h
      · exact .inr (.inl h)
      · exact .inr (.inr h)
    · rintro (h | h | h)
      · exact .inl (.inl h)
      · exact .inl (.inr h)
      · exact .inr h
  · rcases List.mem_append.1 hp with h | h
    · exact h1.2.1 p h
    · exact Nat.le_trans hn (h2.2.1 p h)
  · rw [List.map_append, List.nodup_append]
    refine ⟨h1.2.2, h2.2.2, ?_⟩
    intro a ha b hb e
    obtain ⟨p, hp, rfl⟩ := List.mem_map.1 ha
    obtain ⟨q, hq, rfl⟩ := List.mem_map.1 hb
    have := hlt p hp
    have := h2.2.1 q hq
    omega

/-- Closing everything new, in any order. -/
theorem closed_all {k k' k'' : K} {new : List (Nat × Obj)} (hw : Wf k) (h : Opened k k' new) (hs : List Nat)
    (hrel : ∀ p, p ∈ k''.live ↔ p ∈ k'.live ∧ p.1 ∉ hs) (hall : ∀ p ∈ new, p.1 ∈ hs) (hnew : ∀ i ∈ hs, k.next ≤ i) : SameOpen k k'' := by
  intro p
  rw [hrel, h.1]
  constructor
  · rintro ⟨hp | hp, hn⟩
    · exact hp
    · exact absurd (hall p hp) hn
  · intro hp
    refine ⟨.inl hp, fun hm => ?_⟩
    have := hnew _ hm
    have := hw p hp
    omega

/-- What a call creating an object does. -/
theorem create_ok {a : Ans} {o : Obj} {k k' : K} {h : Nat} (hc : create a o k = (.ok h, k')) :
    a = .ok ∧ h = k.next ∧ k'.next = k.next + 1 ∧ k'.live = (h, o) :: k.live ∧ k'.nonblock = k.nonblock ∧ k'.polled = k.polled ∧ k'.array = k.array := by
  unfold create at hc
  split at hc <;> simp only [Prod.mk.injEq, Except.ok.injEq, reduceCtorEq, false_and] at hc
  obtain ⟨rfl, rfl⟩ := hc
  exact ⟨rfl, rfl, rfl, rfl, rfl, rfl, rfl⟩

theorem create_err {a : Ans} {o : Obj} {k k' : K} {e : Err} (hc : create a o k = (.error e, k')) : k' = k ∧ a ≠ .ok ∧ (e = .enodev ↔ a = .enodev) ∧ e ≠ .badArgument := by
  unfold create at hc
  split at hc <;> simp only [Prod.mk.injEq, Except.error.injEq, reduceCtorEq, false_and] at hc
  · obtain ⟨rfl, rfl⟩ := hc; simp
  · obtain ⟨rfl, rfl⟩ := hc; simp

theorem opened_create {o : Obj} {k k' : K} {h : Nat} (hh : h = k.next) (hl : k'.live = (h, o) :: k.live) : Opened k k' [(h, o)] := by
  refine ⟨fun p => ?_, by simp [hh], by simp⟩
  rw [hl]; simp only [List.mem_cons, List.not_mem_nil, or_false]
  exact or_comm

theorem wf_of_opened {k k' : K} {new : List (Nat × Obj)} (hw : Wf k) (h : Opened k k' new) (hn : k.next ≤ k'.next) (hlt : ∀ p ∈ new, p.1 < k'.next) : Wf k' := by
  intro p hp
  rcases (h.1 p).1 hp with hp | hp
  · have := hw p hp; omega
  · exact hlt p hp

theorem add_live {a : Ans} {h : Nat} {k k' : K} {r : Option Err} (hc : pollerAdd a h k = (r, k')) :
    k'.live = k.live ∧ k'.next = k.next ∧ k'.nonblock = k.nonblock ∧ k'.array = k.array ∧
    (r = none ↔ a = .ok) ∧ (r = none → k'.polled = h :: k.polled) ∧ (r ≠ none → k' = k ∧ r = some .other) := by
  unfold pollerAdd at hc
  cases a <;> simp only [Prod.mk.injEq] at hc <;> obtain ⟨rfl, rfl⟩ := hc <;> simp

/-- `epoll.New`. -/
theorem pollerNew_spec (kn : Kernel) (k k' : K) (hw : Wf k) (r : Except Err Poller) (h : pollerNew kn k = (r, k')) :
    k.next ≤ k'.next ∧ k'.nonblock = k.nonblock ∧ k'.array = k.array ∧
    match r with
    | .error _ => SameOpen k k'
    | .ok p => Opened k k' (pollerObjs p) ∧ (∀ q ∈ pollerObjs p, q.1 < k'.next) ∧ p.closeEvent ∈ k'.polled ∧ p.flushEvent ∈ k'.polled := by
  unfold pollerNew at h
  cases h1 : create kn.epollCreate .epoll k with
  | mk r1 k1 =>
    rw [h1] at h
    cases r1 with
    | error e =>
      dsimp only at h
      cases h
      obtain ⟨rfl, _⟩ := create_err h1
      exact ⟨Nat.le_refl _, rfl, rfl, fun p => Iff.rfl⟩
    | ok ep =>
      obtain ⟨_, e1, n1, l1, b1, _, a1⟩ := create_ok h1
      dsimp only at h
      cases h2 : create (kn.eventfd 0) .eventfd k1 with
      | mk r2 k2 =>
        rw [h2] at h
        cases r2 with
        | error e =>
          obtain ⟨rfl, _⟩ := create_err h2
          cases h
          refine ⟨by rw [release_next]; omega, b1, a1, ?_⟩
          exact closed_all hw (opened_create e1 l1) [ep] (fun p => by rw [mem_release]; simp) (by simp) (by simp [e1])
        | ok c =>
          obtain ⟨_, e2, n2, l2, b2, _, a2⟩ := create_ok h2
          dsimp only at h
          have o2 : Opened k k2 ([(ep, .epoll)] ++ [(c, .eventfd)]) :=
            opened_trans (by omega) (opened_create e1 l1) (opened_create e2 l2) (by simp; omega)
          cases h3 : create (kn.eventfd 1) .eventfd k2 with
          | mk r3 k3 =>
            rw [h3] at h
            cases r3 with
            | error e =>
              obtain ⟨rfl, _⟩ := create_err h3
              cases h
              refine ⟨by simp only [release_next]; omega, b2.trans b1, a2.trans a1, ?_⟩
              exact closed_all hw o2 [ep, c] (fun p => by simp only [mem_release]; grind) (by simp) (by simp; omega)
            | ok f =>
              obtain ⟨_, e3, n3, l3, b3, _, a3⟩ := create_ok h3
              dsimp only at h
              have o3 : Opened k k3 (([(ep, .epoll)] ++ [(c, .eventfd)]) ++ [(f, .eventfd)]) :=
                opened_trans (by omega) o2 (opened_create e3 l3) (by simp; omega)
              have rel : ∀ kk : K, kk.live = k3.live → SameOpen k (release ep (release c (release f kk))) := fun kk hkk =>
                closed_all hw o3 [ep, c, f] (fun p => by simp only [mem_release, hkk]; grind) (by simp) (by simp; omega)
              cases h4 : pollerAdd (kn.epollAdd 0) c k3 with
              | mk r4 k4 =>
                obtain ⟨l4, n4, b4, a4, _, p4, _⟩ := add_live h4
                rw [h4] at h
                cases r4 with
                | some e =>
                  cases h
                  exact ⟨by simp only [release_next]; omega, b4.trans (b3.trans (b2.trans b1)), a4.trans (a3.trans (a2.trans a1)), rel k4 l4⟩
                | none =>
                  dsimp only at h
                  cases h5 : pollerAdd (kn.epollAdd 1) f k4 with
                  | mk r5 k5 =>
                    obtain ⟨l5, n5, b5, a5, _, p5, _⟩ := add_live h5
                    rw [h5] at h
                    cases r5 with
                    | some e =>
                      cases h
                      exact ⟨by simp only [release_next]; omega, b5.trans (b4.trans (b3.trans (b2.trans b1))), a5.trans (a4.trans (a3.trans (a2.trans a1))),
                        rel k5 (l5.trans l4)⟩
                    | none =>
                      cases h
                      refine ⟨by omega, b5.trans (b4.trans (b3.trans (b2.trans b1))), a5.trans (a4.trans (a3.trans (a2.trans a1))), ?_, ?_, ?_, ?_⟩
                      · refine ⟨fun p => ?_, o3.2.1, o3.2.2⟩
                        rw [l5, l4]; exact o3.1 p
                      · simp only [pollerObjs, List.mem_cons, List.not_mem_nil, or_false]
                        rintro q (rfl | rfl | rfl) <;> dsimp only <;> omega
                      · rw [p5 rfl, p4 rfl]; simp
                      · rw [p5 rfl]; simp

/-- What a ring consists of. -/
def ringObjs (kn : Kernel) (buf : Nat) (opts : Opts) (r : Ring) : List (Nat × Obj) :=
  [(r.event, .event (eventAttr r.cpu opts)), (r.mmap, .perfMap r.event (perfBufferSize kn.pageSize buf) (!opts.overwritable))]

/-- `newPerfEventRing`. -/
theorem newRing_spec (kn : Kernel) (cpu buf : Nat) (opts : Opts) (k k' : K) (hw : Wf k) (r : Except Err Ring) (h : newPerfEventRing kn cpu buf opts k = (r, k')) :
    k.next ≤ k'.next ∧ k'.array = k.array ∧ (∀ x ∈ k.polled, x ∈ k'.polled) ∧ (∀ x ∈ k.nonblock, x ∈ k'.nonblock) ∧
    match r with
    | .error e => SameOpen k k' ∧ (e = .enodev → kn.perfEventOpen cpu = .enodev) ∧
        (e ≠ .enodev → opts.watermark ≥ buf ∨ (kn.perfEventOpen cpu = .err ∨ kn.setNonblock cpu ≠ .ok ∨ kn.mmap cpu ≠ .ok))
    | .ok r => r.cpu = cpu ∧ kn.perfEventOpen cpu = .ok ∧ Opened k k' (ringObjs kn buf opts r) ∧ (∀ q ∈ ringObjs kn buf opts r, q.1 < k'.next) ∧ r.event ∈ k'.nonblock ∧
        opts.watermark < buf := by
  unfold newPerfEventRing at h
  split at h
  · cases h
    rename_i hwm
    exact ⟨Nat.le_refl _, rfl, fun x hx => hx, fun x hx => hx, fun p => Iff.rfl, by simp, fun _ => .inl hwm⟩
  · rename_i hwm
    cases h1 : create (kn.perfEventOpen cpu) (.event (eventAttr cpu opts)) k with
    | mk r1 k1 =>
      rw [h1] at h
      cases r1 with
      | error e =>
        dsimp only at h
        cases h
        obtain ⟨rfl, h2, h3, h4⟩ := create_err h1
        refine ⟨Nat.le_refl _, rfl, fun x hx => hx, fun x hx => hx, fun p => Iff.rfl, h3.1, fun hne => .inr (.inl ?_)⟩
        cases hp : kn.perfEventOpen cpu with
        | ok => exact absurd hp h2
        | enodev => exact absurd (h3.2 hp) hne
        | err => rfl
      | ok fd =>
        obtain ⟨ha, e1, n1, l1, b1, p1, a1⟩ := create_ok h1
        dsimp only at h
        have o1 := opened_create e1 l1
        have rel : ∀ kk : K, kk.live = k1.live → SameOpen k (release fd kk) := fun kk hkk =>
          closed_all hw o1 [fd] (fun p => by rw [mem_release, hkk]; simp) (by simp) (by simp [e1])
        cases hs : kn.setNonblock cpu with
        | ok =>
          rw [hs] at h
          dsimp only at h
          cases h2 : create (kn.mmap cpu) (.perfMap fd (perfBufferSize kn.pageSize buf) (!opts.overwritable)) { k1 with nonblock := fd :: k1.nonblock } with
          | mk r2 k2 =>
            rw [h2] at h
            cases r2 with
            | error e =>
              obtain ⟨rfl, h3, _⟩ := create_err h2
              cases h
              exact ⟨by rw [release_next]; dsimp only; omega, a1, fun x hx => by simp [release, p1, hx], fun x hx => by simp [release, b1, hx], rel _ rfl, by simp, fun _ => .inr (.inr (.inr h3))⟩
            | ok m =>
              obtain ⟨_, e2, n2, l2, b2, p2, a2⟩ := create_ok h2
              cases h
              dsimp only at e2 n2 l2 b2 p2 a2
              have o2 : Opened k k' ([(fd, .event (eventAttr cpu opts))] ++ [(m, .perfMap fd (perfBufferSize kn.pageSize buf) (!opts.overwritable))]) :=
                opened_trans (by omega) o1 (opened_create e2 l2) (by simp; omega)
              refine ⟨by omega, a2.trans a1, fun x hx => by rw [p2, p1]; exact hx, fun x hx => by rw [b2, b1]; simp [hx], rfl, ha, o2, ?_, by rw [b2]; simp, by omega⟩
              intro q hq
              simp only [ringObjs, List.mem_cons, List.not_mem_nil, or_false] at hq
              rcases hq with rfl | rfl <;> dsimp only <;> omega
        | enodev =>
          rw [hs] at h; cases h
          exact ⟨by rw [release_next]; omega, a1, fun x hx => by simp [release, p1, hx], fun x hx => by simp [release, b1, hx], rel _ rfl, by simp, fun _ => .inr (.inr (.inl (by simp)))⟩
        | err =>
          rw [hs] at h; cases h
          exact ⟨by rw [release_next]; omega, a1, fun x hx => by simp [release, p1, hx], fun x hx => by simp [release, b1, hx], rel _ rfl, by simp, fun _ => .inr (.inr (.inl (by simp)))⟩

theorem mem_closeRings : ∀ (rs : List Ring) (k : K) (p : Nat × Obj), p ∈ (closeRings rs k).live ↔ p ∈ k.live ∧ p.1 ∉ rs.flatMap (fun r => [r.event, r.mmap])
  | [], k, p => by simp [closeRings]
  | r :: rs, k, p => by
    unfold closeRings
    rw [mem_release, mem_release, mem_closeRings rs k p]
    simp only [List.flatMap_cons, List.mem_append, List.mem_cons, List.not_mem_nil, or_false]
    grind

theorem closeRings_next : ∀ (rs : List Ring) (k : K), (closeRings rs k).next = k.next ∧ (closeRings rs k).array = k.array ∧
    (closeRings rs k).polled = k.polled ∧ (closeRings rs k).nonblock = k.nonblock
  | [], k => ⟨rfl, rfl, rfl, rfl⟩
  | r :: rs, k => by unfold closeRings; simp only [release]; exact closeRings_next rs k

/-- All rings. -/
def allObjs (kn : Kernel) (buf : Nat) (opts : Opts) (rs : List Ring) : List (Nat × Obj) := rs.flatMap (ringObjs kn buf opts)

/-- The loop over the CPUs. -/
theorem ringLoop_spec (kn : Kernel) (buf : Nat) (opts : Opts) : ∀ (n cpu : Nat) (k k' : K) (r : Except Err (List Ring)), Wf k → ringLoop kn buf opts n cpu k = (r, k') →
    k.next ≤ k'.next ∧ k'.array = k.array ∧ (∀ x ∈ k.polled, x ∈ k'.polled) ∧ (∀ x ∈ k.nonblock, x ∈ k'.nonblock) ∧
    match r with
    | .error _ => SameOpen k k'
    | .ok rs => rs.map (·.cpu) = ((List.range' cpu n).filter fun c => kn.perfEventOpen c ≠ .enodev) ∧ Opened k k' (allObjs kn buf opts rs) ∧
        (∀ q ∈ allObjs kn buf opts rs, q.1 < k'.next) ∧ (∀ r ∈ rs, r.event ∈ k'.nonblock ∧ r.event ∈ k'.polled)
  | 0, cpu, k, k', r, hw, h => by
    simp only [ringLoop, Prod.mk.injEq] at h
    obtain ⟨rfl, rfl⟩ := h
    exact ⟨Nat.le_refl _, rfl, fun _ h => h, fun _ h => h, by simp, opened_nil k, by simp [allObjs], by simp⟩
  | n + 1, cpu, k, k', r, hw, h => by
    unfold ringLoop at h
    cases h1 : newPerfEventRing kn cpu buf opts k with
    | mk r1 k1 =>
      rw [h1] at h
      obtain ⟨n1, a1, p1, b1, s1⟩ := newRing_spec kn cpu buf opts k k1 hw r1 h1
      cases r1 with
      | error e =>
        obtain ⟨s1, s2, _⟩ := s1
        have hw1 : Wf k1 := fun p hp => by have := hw p ((s1 p).1 hp); omega
        cases e with
        | badArgument => cases h; exact ⟨n1, a1, p1, b1, s1⟩
        | other => cases h; exact ⟨n1, a1, p1, b1, s1⟩
        | enodev =>
          dsimp only at h
          obtain ⟨n2, a2, p2, b2, h2⟩ := ringLoop_spec kn buf opts n (cpu + 1) k1 k' r hw1 h
          refine ⟨by omega, a2.trans a1, fun x hx => p2 x (p1 x hx), fun x hx => b2 x (b1 x hx), ?_⟩
          cases r with
          | error e => exact fun p => (h2 p).trans (s1 p)
          | ok rs =>
            obtain ⟨c1, c2, c3, c4⟩ := h2
            refine ⟨?_, ⟨fun p => ?_, fun p hp => ?_, c2.2.2⟩, c3, c4⟩
            · rw [List.range'_succ, List.filter_cons_of_neg (by simp [s2 rfl])]; exact c1
            · rw [c2.1, s1 p]
            · have := c2.2.1 p hp; omega
      | ok rg =>
        obtain ⟨s1, s2, s3, s4, s5, s6⟩ := s1
        dsimp only at h
        have hw1 : Wf k1 := wf_of_opened hw s3 n1 s4
        have rel : ∀ kk : K, SameOpen k1 kk → SameOpen k (closeRings [rg] kk) := fun kk hkk => by
          refine closed_all hw s3 [rg.event, rg.mmap] (fun p => ?_) (by simp [ringObjs]) ?_
          · rw [mem_closeRings, hkk p]; simp
          · have := s3.2.1
            simp only [ringObjs, List.mem_cons, List.not_mem_nil, or_false, forall_eq_or_imp, forall_eq] at this
            simpa using this
        cases h2 : pollerAdd (kn.addEvent cpu) rg.event k1 with
        | mk r2 k2 =>
          obtain ⟨l2, n2, b2, a2, _, p2, p2'⟩ := add_live h2
          rw [h2] at h
          cases r2 with
          | some e =>
            cases h
            obtain ⟨rfl, _⟩ := p2' (by simp)
            have := closeRings_next [rg] k2
            refine ⟨by rw [this.1]; omega, by rw [this.2.1]; exact a1, fun x hx => by rw [this.2.2.1]; exact p1 x hx, fun x hx => by rw [this.2.2.2]; exact b1 x hx, ?_⟩
            exact rel k2 (fun p => Iff.rfl)
          | none =>
            dsimp only at h
            have hw2 : Wf k2 := fun p hp => by rw [n2]; exact hw1 p (by rw [← l2]; exact hp)
            cases h3 : ringLoop kn buf opts n (cpu + 1) k2 with
            | mk r3 k3 =>
              rw [h3] at h
              obtain ⟨n3, a3, p3, b3, h3'⟩ := ringLoop_spec kn buf opts n (cpu + 1) k2 k3 r3 hw2 h3
              cases r3 with
              | error e =>
                cases h
                have := closeRings_next [rg] k3
                refine ⟨by rw [this.1]; omega, by rw [this.2.1, a3, a2]; exact a1, fun x hx => by rw [this.2.2.1]; exact p3 x (by rw [p2 rfl]; simp [p1 x hx]),
                  fun x hx => by rw [this.2.2.2]; exact b3 x (by rw [b2]; exact b1 x hx), ?_⟩
                exact rel k3 (fun p => by rw [h3' p, l2])
              | ok rs =>
                cases h
                obtain ⟨c1, c2, c3, c4⟩ := h3'
                have o2 : Opened k k2 (ringObjs kn buf opts rg) := ⟨fun p => by rw [l2]; exact s3.1 p, s3.2.1, s3.2.2⟩
                refine ⟨by omega, by rw [a3, a2]; exact a1, fun x hx => p3 x (by rw [p2 rfl]; simp [p1 x hx]), fun x hx => b3 x (by rw [b2]; exact b1 x hx), ?_, ?_, ?_, ?_⟩
                · rw [List.range'_succ, List.filter_cons_of_pos (by simp [s2]), List.map_cons, s1, c1]
                · exact opened_trans (by omega) o2 c2 (fun p hp => by have := s4 p hp; omega)
                · intro q hq
                  simp only [allObjs, List.flatMap_cons, List.mem_append] at hq
                  rcases hq with hq | hq
                  · have := s4 q hq; omega
                  · exact c3 q hq
                · intro r hr
                  rcases List.mem_cons.1 hr with rfl | hr
                  · exact ⟨b3 _ (by rw [b2]; exact s5), p3 _ (by rw [p2 rfl]; simp)⟩
                  · exact c4 r hr

/-! ## Sizes and attributes -/

theorem perfBufferSize_right (page buf : Nat) (hp : 0 < page) (hb : 0 < buf) : RightSize page buf (perfBufferSize page buf) := by
  have hdm := Nat.div_add_mod (buf + page - 1) page
  have hml := Nat.mod_lt (buf + page - 1) hp
  unfold perfBufferSize
  dsimp only
  generalize hq : (buf + page - 1) / page = q at *
  have hq1 : buf ≤ q * page := by rw [Nat.mul_comm q page]; omega
  have hq0 : 0 < q := by
    rcases Nat.eq_zero_or_pos q with h | h
    · subst h; omega
    · exact h
  have hmin : ∀ m, buf ≤ m * page → q ≤ m := by
    intro m hm
    rcases Nat.lt_or_ge m q with h | h
    · have h1 : m * page + page ≤ q * page := by
        have : (m + 1) * page ≤ q * page := Nat.mul_le_mul_right _ h
        rw [Nat.succ_mul] at this; exact this
      have : page * q = q * page := Nat.mul_comm _ _
      omega
    · exact h
  by_cases h1 : q ≤ 1
  · have : q = 1 := by omega
    subst this
    refine ⟨0, by simp; omega, by simpa using hq1, fun m _ => Nat.zero_le m⟩
  · rw [if_neg h1]
    have hne : q - 1 ≠ 0 := by omega
    have hlo := Nat.log2_self_le hne
    have hhi := Nat.lt_log2_self (n := q - 1)
    refine ⟨Nat.log2 (q - 1) + 1, by rw [Nat.add_mul]; omega, ?_, ?_⟩
    · exact Nat.le_trans hq1 (Nat.mul_le_mul_right _ (by omega))
    · intro m hm
      have := hmin _ hm
      rcases Nat.lt_or_ge m (Nat.log2 (q - 1) + 1) with h | h
      · have : 2 ^ m ≤ 2 ^ Nat.log2 (q - 1) := Nat.pow_le_pow_right (by omega) (by omega)
        omega
      · exact h

theorem eventAttr_right (cpu : Nat) (opts : Opts) (h1 : opts.wakeupEvents < 2 ^ 32) (h2 : opts.watermark < 2 ^ 32) : RightEvent cpu opts (eventAttr cpu opts) := by
  unfold RightEvent eventAttr
  refine ⟨rfl, rfl, rfl, rfl, rfl, ?_, ?_⟩
  · intro h
    simp only [gt_iff_lt, h, decide_true, Bool.not_true, if_true, true_and, BitVec.toNat_ofInt]
    omega
  · intro h
    have hn : ¬ (opts.wakeupEvents > 0) := by omega
    simp only [hn, decide_false, Bool.not_false, if_false, true_and]
    refine ⟨fun hw => ?_, fun hw => by rw [hw]; rfl⟩
    rw [if_neg (by omega), BitVec.toNat_ofInt]
    omega

/-! ## Perf reader -/

theorem resume_spec (kn : Kernel) : ∀ (rs : List Ring) (i : Nat) (k k' : K) (r : Option Err), resume kn i rs k = (r, k') →
    k'.live = k.live ∧ k'.next = k.next ∧ k'.polled = k.polled ∧ k'.nonblock = k.nonblock ∧
    (r = none → (∀ (j : Nat) rg, rs[j]? = some rg → (i + j, rg.event) ∈ k'.array) ∧ ∀ p ∈ k'.array, p ∈ k.array ∨ ∃ j rg, rs[j]? = some rg ∧ p = (i + j, rg.event)) ∧
    (r ≠ none → ∃ j, j < rs.length ∧ kn.put (i + j) ≠ .ok) ∧ (∀ p ∈ k.array, p ∈ k'.array)
  | [], i, k, k', r, h => by
    simp only [resume, Prod.mk.injEq] at h
    obtain ⟨rfl, rfl⟩ := h
    simp
  | rg :: rs, i, k, k', r, h => by
    unfold resume at h
    cases hp : kn.put i with
    | ok =>
      rw [hp] at h
      dsimp only at h
      obtain ⟨h1, h2, h3, h4, h5, h6, h7⟩ := resume_spec kn rs (i + 1) _ k' r h
      refine ⟨h1, h2, h3, h4, fun hr => ⟨?_, ?_⟩, fun hr => ?_, fun p hp => h7 p (by simp [hp])⟩
      · intro j q hq
        cases j with
        | zero => simp at hq; subst hq; exact h7 _ (by simp)
        | succ j =>
          have := (h5 hr).1 j q (by simpa using hq)
          rw [show i + (j + 1) = i + 1 + j by omega]; exact this
      · intro p hpm
        rcases (h5 hr).2 p hpm with hp | ⟨j, q, hq, rfl⟩
        · rcases List.mem_cons.1 hp with rfl | hp
          · exact .inr ⟨0, rg, by simp, rfl⟩
          · exact .inl hp
        · exact .inr ⟨j + 1, q, by simpa using hq, by rw [show i + (j + 1) = i + 1 + j by omega]⟩
      · obtain ⟨j, hj, hn⟩ := h6 hr
        exact ⟨j + 1, by simpa using hj, by rw [show i + (j + 1) = i + 1 + j by omega]; exact hn⟩
    | enodev =>
      rw [hp] at h; cases h
      exact ⟨rfl, rfl, rfl, rfl, by simp, fun _ => ⟨0, by simp, by simp [hp]⟩, fun p hp => hp⟩
    | err =>
      rw [hp] at h; cases h
      exact ⟨rfl, rfl, rfl, rfl, by simp, fun _ => ⟨0, by simp, by simp [hp]⟩, fun p hp => hp⟩

theorem mem_pollerClose (p : Poller) (k : K) (q : Nat × Obj) : q ∈ (pollerClose p k).live ↔ q ∈ k.live ∧ q.1 ∉ [p.epoll, p.closeEvent, p.flushEvent] := by
  unfold pollerClose
  simp only [mem_release, List.mem_cons, List.not_mem_nil, or_false]
  grind

theorem allObjs_handle {kn : Kernel} {buf : Nat} {opts : Opts} {rs : List Ring} (h : Nat) :
    h ∈ rs.flatMap (fun r => [r.event, r.mmap]) ↔ ∃ q ∈ allObjs kn buf opts rs, q.1 = h := by
  simp only [allObjs, List.mem_flatMap, ringObjs, List.mem_cons, List.not_mem_nil, or_false]
  constructor
  · rintro ⟨r, hr, rfl | rfl⟩
    · exact ⟨_, ⟨r, hr, .inl rfl⟩, rfl⟩
    · exact ⟨_, ⟨r, hr, .inr rfl⟩, rfl⟩
  · rintro ⟨q, ⟨r, hr, rfl | rfl⟩, rfl⟩
    · exact ⟨r, hr, .inl rfl⟩
    · exact ⟨r, hr, .inr rfl⟩

/-- What `NewReaderWithOptions` does. -/
theorem newPerf_spec (kn : Kernel) (nCPU : Nat) (buf : Int) (opts : Opts) (k k' : K) (hw : Wf k) (r : Except Err Reader) (h : newPerfReader kn nCPU buf opts k = (r, k')) :
    match r with
    | .error _ => SameOpen k k' ∨ ∃ i, kn.put i ≠ .ok ∧ ∃ a, (∀ p, p ∈ k'.live ↔ p ∈ k.live ∨ p = (a, .array)) ∧ k.next ≤ a
    | .ok pr => 1 ≤ buf ∧ ¬ (opts.wakeupEvents > 0 ∧ opts.watermark > 0) ∧ pr.rings.map (·.cpu) = ((List.range nCPU).filter fun c => kn.perfEventOpen c ≠ .enodev) ∧
        (Opened k k' (pollerObjs pr.poller ++ allObjs kn buf.toNat opts pr.rings ++ [(pr.array, .array)]) ∧ Wf k') ∧
        (∀ r ∈ pr.rings, r.event ∈ k'.nonblock ∧ r.event ∈ k'.polled) ∧
        (∀ (j : Nat) rg, pr.rings[j]? = some rg → (j, rg.event) ∈ k'.array) ∧ ∀ p ∈ k'.array, p ∈ k.array ∨ ∃ j rg, pr.rings[j]? = some rg ∧ p = (j, rg.event) := by
  unfold newPerfReader at h
  split at h
  · cases h; exact .inl fun p => Iff.rfl
  · rename_i hbuf
    split at h
    · cases h; exact .inl fun p => Iff.rfl
    · rename_i hopt
      cases h1 : pollerNew kn k with
      | mk r1 k1 =>
        rw [h1] at h
        obtain ⟨n1, b1, a1, s1⟩ := pollerNew_spec kn k k1 hw r1 h1
        cases r1 with
        | error e => dsimp only at h; cases h; exact .inl s1
        | ok p =>
          obtain ⟨o1, t1, _, _⟩ := s1
          have hw1 : Wf k1 := wf_of_opened hw o1 n1 t1
          dsimp only at h
          cases h2 : ringLoop kn buf.toNat opts nCPU 0 k1 with
          | mk r2 k2 =>
            rw [h2] at h
            obtain ⟨n2, a2, p2, b2, s2⟩ := ringLoop_spec kn buf.toNat opts nCPU 0 k1 k2 r2 hw1 h2
            have hnew : ∀ i ∈ [p.epoll, p.closeEvent, p.flushEvent], k.next ≤ i := by
              have := o1.2.1
              simp only [pollerObjs, List.mem_cons, List.not_mem_nil, or_false, forall_eq_or_imp, forall_eq] at this ⊢
              exact this
            cases r2 with
            | error e =>
              dsimp only at h
              cases h
              refine .inl (closed_all hw o1 [p.epoll, p.closeEvent, p.flushEvent] (fun q => ?_) (by simp [pollerObjs]) hnew)
              rw [mem_pollerClose, s2 q]
            | ok rings =>
              obtain ⟨c1, c2, c3, c4⟩ := s2
              dsimp only at h
              have o2 : Opened k k2 (pollerObjs p ++ allObjs kn buf.toNat opts rings) := opened_trans n1 o1 c2 t1
              have t2 : ∀ q ∈ pollerObjs p ++ allObjs kn buf.toNat opts rings, q.1 < k2.next := by
                intro q hq
                rcases List.mem_append.1 hq with hq | hq
                · have := t1 q hq; omega
                · exact c3 q hq
              have hs : ∀ i ∈ [p.epoll, p.closeEvent, p.flushEvent] ++ rings.flatMap (fun r => [r.event, r.mmap]), k.next ≤ i := by
                intro i hi
                rcases List.mem_append.1 hi with hi | hi
                · exact hnew i hi
                · obtain ⟨q, hq, rfl⟩ := (allObjs_handle i).1 hi
                  have := c2.2.1 q hq; omega
              have hs2 : ∀ i ∈ [p.epoll, p.closeEvent, p.flushEvent] ++ rings.flatMap (fun r => [r.event, r.mmap]), i < k2.next := by
                intro i hi
                rcases List.mem_append.1 hi with hi | hi
                · have : ∃ q ∈ pollerObjs p, q.1 = i := by
                    simp only [pollerObjs, List.mem_cons, List.not_mem_nil, or_false] at hi ⊢
                    rcases hi with rfl | rfl | rfl
                    · exact ⟨_, .inl rfl, rfl⟩
                    · exact ⟨_, .inr (.inl rfl), rfl⟩
                    · exact ⟨_, .inr (.inr rfl), rfl⟩
                  obtain ⟨q, hq, rfl⟩ := this
                  have := t1 q hq; omega
                · obtain ⟨q, hq, rfl⟩ := (allObjs_handle i).1 hi
                  exact c3 q hq
              have hall : ∀ q ∈ pollerObjs p ++ allObjs kn buf.toNat opts rings, q.1 ∈ [p.epoll, p.closeEvent, p.flushEvent] ++ rings.flatMap (fun r => [r.event, r.mmap]) := by
                intro q hq
                rw [List.mem_append]
                rcases List.mem_append.1 hq with hq | hq
                · left
                  simp only [pollerObjs, List.mem_cons, List.not_mem_nil, or_false] at hq ⊢
                  rcases hq with rfl | rfl | rfl <;> simp
                · right; exact (allObjs_handle _).2 ⟨q, hq, rfl⟩
              have closes : ∀ kk : K, (∀ q, q ∈ (pollerClose p (closeRings rings kk)).live ↔ q ∈ kk.live ∧
                  q.1 ∉ [p.epoll, p.closeEvent, p.flushEvent] ++ rings.flatMap (fun r => [r.event, r.mmap])) := by
                intro kk q
                rw [mem_pollerClose, mem_closeRings]
                simp only [List.mem_append, not_or]
                constructor
                · rintro ⟨⟨h1, h2⟩, h3⟩; exact ⟨h1, h3, h2⟩
                · rintro ⟨h1, h3, h2⟩; exact ⟨⟨h1, h2⟩, h3⟩
              cases h3 : create kn.dup .array k2 with
              | mk r3 k3 =>
                rw [h3] at h
                cases r3 with
                | error e =>
                  dsimp only at h
                  cases h
                  obtain ⟨rfl, _⟩ := create_err h3
                  exact .inl (closed_all hw o2 _ (closes _) hall hs)
                | ok arr =>
                  obtain ⟨_, e3, n3, l3, b3, p3, a3⟩ := create_ok h3
                  dsimp only at h
                  cases h4 : resume kn 0 rings k3 with
                  | mk r4 k4 =>
                    rw [h4] at h
                    obtain ⟨l4, n4, p4, b4, a4, f4, _⟩ := resume_spec kn rings 0 k3 k4 r4 h4
                    cases r4 with
                    | some e =>
                      dsimp only at h
                      cases h
                      obtain ⟨j, _, hj⟩ := f4 (by simp)
                      refine .inr ⟨0 + j, hj, arr, fun q => ?_, by omega⟩
                      rw [closes, l4, l3, List.mem_cons, o2.1]
                      constructor
                      · rintro ⟨rfl | hq | hq, hn⟩
                        · exact .inr rfl
                        · exact .inl hq
                        · exact absurd (hall q hq) hn
                      · rintro (hq | rfl)
                        · refine ⟨.inr (.inl hq), fun hm => ?_⟩
                          have := hs _ hm; have := hw q hq; omega
                        · refine ⟨.inl rfl, fun hm => ?_⟩
                          have := hs2 _ hm; dsimp only at this; omega
                    | none =>
                      dsimp only at h
                      cases h
                      obtain ⟨a5, a6⟩ := a4 rfl
                      refine ⟨by omega, hopt, ?_, ?_, ?_, ?_, ?_⟩
                      · rw [c1, List.range_eq_range']
                      · have o3 : Opened k k3 ((pollerObjs p ++ allObjs kn buf.toNat opts rings) ++ [(arr, .array)]) :=
                          opened_trans (by omega) o2 (opened_create e3 l3) t2
                        refine ⟨⟨fun q => by rw [l4]; exact o3.1 q, o3.2.1, o3.2.2⟩, fun q hq => ?_⟩
                        rw [l4, l3] at hq
                        rw [n4]
                        rcases List.mem_cons.1 hq with rfl | hq
                        · dsimp only; omega
                        · have := wf_of_opened hw o2 (by omega) t2 q hq; omega
                      · intro r hr
                        rw [b4, p4, b3, p3]; exact c4 r hr
                      · intro j rg hj
                        have := a5 j rg hj
                        simpa using this
                      · intro q hq
                        rcases a6 q hq with hq | ⟨j, rg, hj, rfl⟩
                        · left; rw [a3, a2, a1] at hq; exact hq
                        · exact .inr ⟨j, rg, hj, by simp⟩

/-- **C96.** A perf reader: a ring for every CPU which is online, no other; every ring has an event of its CPU with the options asked for, non-blocking and polled, and a mapping of
at least the size asked for, read-only if the ring is overwritable. Nothing else is opened. The array refers to the events. -/
theorem perf_open (kn : Kernel) (nCPU : Nat) (buf : Int) (opts : Opts) (k k' : K) (hw : Wf k) (pr : Reader) (hpage : 0 < kn.pageSize)
    (h1 : opts.wakeupEvents < 2 ^ 32) (h2 : opts.watermark < 2 ^ 32) (h : newPerfReader kn nCPU buf opts k = (.ok pr, k')) :
    pr.rings.map (·.cpu) = online kn nCPU ∧
    (∃ f : Ring → List (Nat × Obj), (∀ r ∈ pr.rings, RingObjs kn.pageSize buf.toNat opts r (f r)) ∧
      Opened k k' (pollerObjs pr.poller ++ pr.rings.flatMap f ++ [(pr.array, .array)])) ∧
    (∀ r ∈ pr.rings, r.event ∈ k'.nonblock ∧ r.event ∈ k'.polled) ∧
    (∀ (j : Nat) rg, pr.rings[j]? = some rg → (j, rg.event) ∈ k'.array) ∧ ∀ p ∈ k'.array, p ∈ k.array ∨ ∃ j rg, pr.rings[j]? = some rg ∧ p = (j, rg.event) := by
  obtain ⟨s0, _, s1, ⟨s2, hw'⟩, s3, s4, s5⟩ := newPerf_spec kn nCPU buf opts k k' hw _ h
  have hsz := perfBufferSize_right kn.pageSize buf.toNat hpage (by omega)
  exact ⟨s1, ⟨ringObjs kn buf.toNat opts, fun r _ => ⟨_, _, rfl, eventAttr_right _ _ h1 h2, hsz⟩, s2⟩, s3, s4, s5⟩

/-- **C96.** If no CPU is offline, the entry of the array for each CPU is the event of that CPU. -/
theorem perf_open_indices (kn : Kernel) (nCPU : Nat) (buf : Int) (opts : Opts) (k k' : K) (hw : Wf k) (pr : Reader)
    (hon : ∀ c < nCPU, kn.perfEventOpen c ≠ .enodev) (h : newPerfReader kn nCPU buf opts k = (.ok pr, k')) :
    ∀ c < nCPU, ∃ r ∈ pr.rings, r.cpu = c ∧ (c, r.event) ∈ k'.array := by
  obtain ⟨s0, _, s1, ⟨s2, hw'⟩, s3, s4, s5⟩ := newPerf_spec kn nCPU buf opts k k' hw _ h
  have hr : pr.rings.map (·.cpu) = List.range nCPU := by
    rw [s1, List.filter_eq_self]
    intro c hc
    simpa using hon c (List.mem_range.1 hc)
  intro c hc
  have hlen : c < pr.rings.length := by
    have := congrArg List.length hr
    simp only [List.length_map, List.length_range] at this; omega
  refine ⟨pr.rings[c], List.getElem_mem _, ?_, s4 c _ (List.getElem?_eq_getElem hlen)⟩
  have : (pr.rings.map (·.cpu))[c]'(by simpa using hlen) = (List.range nCPU)[c]'(by simpa using hc) := by simp only [hr]
  simpa using this

/-- **C96.** If opening a perf reader fails, everything opened on the way is closed; but if the array refuses an entry, the copy of its descriptor stays open (until it is collected). -/
theorem perf_open_failure_partial (kn : Kernel) (nCPU : Nat) (buf : Int) (opts : Opts) (k k' : K) (hw : Wf k) (e : Err)
    (h : newPerfReader kn nCPU buf opts k = (.error e, k')) (hput : ∀ i, kn.put i = .ok) : SameOpen k k' := by
  rcases newPerf_spec kn nCPU buf opts k k' hw _ h with h | ⟨i, hi, _⟩
  · exact h
  · exact absurd (hput i) hi

/-- And nothing else is left if the array refuses an entry. -/
theorem perf_open_failure_rest (kn : Kernel) (nCPU : Nat) (buf : Int) (opts : Opts) (k k' : K) (hw : Wf k) (e : Err)
    (h : newPerfReader kn nCPU buf opts k = (.error e, k')) : SameOpen k k' ∨ ∃ a, Opened k k' [(a, .array)] := by
  rcases newPerf_spec kn nCPU buf opts k k' hw _ h with h | ⟨i, hi, a, ha, hn⟩
  · exact .inl h
  · exact .inr ⟨a, fun p => by rw [ha]; simp, by simpa using hn, by simp⟩

theorem mem_unmapAll : ∀ (rs : List Ring) (k : K) (p : Nat × Obj), p ∈ (unmapAll rs k).live ↔ p ∈ k.live ∧ p.1 ∉ rs.map (·.mmap)
  | [], k, p => by simp [unmapAll]
  | r :: rs, k, p => by
    unfold unmapAll
    rw [mem_unmapAll rs, mem_release]
    simp only [List.map_cons, List.mem_cons, not_or, and_assoc]

theorem mem_closeEvents : ∀ (rs : List Ring) (k : K) (p : Nat × Obj), p ∈ (closeEvents rs k).live ↔ p ∈ k.live ∧ p.1 ∉ rs.map (·.event)
  | [], k, p => by simp [closeEvents]
  | r :: rs, k, p => by
    unfold closeEvents
    rw [mem_closeEvents rs, mem_release]
    simp only [List.map_cons, List.mem_cons, not_or, and_assoc]

/-- **C96.** Closing a perf reader closes all that opening it has opened, and nothing else. -/
theorem perf_close (kn : Kernel) (nCPU : Nat) (buf : Int) (opts : Opts) (k k' : K) (hw : Wf k) (pr : Reader) (h : newPerfReader kn nCPU buf opts k = (.ok pr, k'))
    (k1 : K) (other : List (Nat × Obj)) (hlater : Opened k' k1 other) :
    ∀ p, p ∈ (perfClose pr k1).live ↔ p ∈ k.live ∨ p ∈ other := by
  obtain ⟨s0, _, s1, ⟨s2, hw'⟩, s3, s4, s5⟩ := newPerf_spec kn nCPU buf opts k k' hw _ h
  have key : ∀ i, (i ∈ [pr.poller.epoll, pr.poller.closeEvent, pr.poller.flushEvent] ∨ i ∈ pr.rings.map (·.mmap) ∨ i ∈ pr.rings.map (·.event) ∨ i = pr.array) ↔
      ∃ q ∈ pollerObjs pr.poller ++ allObjs kn buf.toNat opts pr.rings ++ [(pr.array, .array)], q.1 = i := by
    intro i
    have ha := allObjs_handle (kn := kn) (buf := buf.toNat) (opts := opts) (rs := pr.rings) i
    have hm : i ∈ pr.rings.flatMap (fun r => [r.event, r.mmap]) ↔ i ∈ pr.rings.map (·.mmap) ∨ i ∈ pr.rings.map (·.event) := by
      simp only [List.mem_flatMap, List.mem_map, List.mem_cons, List.not_mem_nil, or_false]
      constructor
      · rintro ⟨r, hr, rfl | rfl⟩
        · exact .inr ⟨r, hr, rfl⟩
        · exact .inl ⟨r, hr, rfl⟩
      · rintro (⟨r, hr, rfl⟩ | ⟨r, hr, rfl⟩)
        · exact ⟨r, hr, .inr rfl⟩
        · exact ⟨r, hr, .inl rfl⟩
    simp only [List.mem_append, List.mem_singleton, or_and_right, exists_or, exists_eq_left]
    rw [← ha, hm]
    simp only [pollerObjs, List.mem_cons, List.not_mem_nil, or_false, or_and_right, exists_or, exists_eq_left, or_assoc, eq_comm]
  intro p
  unfold perfClose
  rw [mem_release, mem_closeEvents, mem_unmapAll, mem_pollerClose, hlater.1, s2.1]
  have hk := key p.1
  constructor
  · rintro ⟨⟨⟨⟨hp, n1⟩, n2⟩, n3⟩, n4⟩
    rcases hp with (hp | hp) | hp
    · exact .inl hp
    · rcases hk.2 ⟨p, hp, rfl⟩ with h | h | h | h
      · exact absurd h n1
      · exact absurd h n2
      · exact absurd h n3
      · exact absurd h n4
    · exact .inr hp
  · intro hp
    have hn : ¬ ∃ q ∈ pollerObjs pr.poller ++ allObjs kn buf.toNat opts pr.rings ++ [(pr.array, .array)], q.1 = p.1 := by
      rintro ⟨q, hq, e⟩
      rcases hp with hp | hp
      · have := s2.2.1 q hq; have := hw p hp; omega
      · have := hlater.2.1 p hp
        have := hw' q ((s2.1 q).2 (.inr hq)); omega
    rw [← hk] at hn
    simp only [not_or] at hn
    exact ⟨⟨⟨⟨hp.elim (fun h => .inl (.inl h)) .inr, hn.1⟩, hn.2.1⟩, hn.2.2.1⟩, hn.2.2.2⟩

theorem pollerNew_ok (kn : Kernel) (k : K) (h : kn.epollCreate = .ok ∧ kn.eventfd 0 = .ok ∧ kn.eventfd 1 = .ok ∧ kn.epollAdd 0 = .ok ∧ kn.epollAdd 1 = .ok) :
    ∃ p k', pollerNew kn k = (.ok p, k') := by
  obtain ⟨h1, h2, h3, h4, h5⟩ := h
  simp [pollerNew, create, pollerAdd, h1, h2, h3, h4, h5]

theorem ringLoop_ok (kn : Kernel) (buf : Nat) (opts : Opts) (hwm : opts.watermark < buf) : ∀ (n cpu : Nat) (k : K),
    (∀ c, cpu ≤ c → c < cpu + n → kn.perfEventOpen c ≠ .err ∧ kn.setNonblock c = .ok ∧ kn.mmap c = .ok ∧ kn.addEvent c = .ok) →
    ∃ rs k', ringLoop kn buf opts n cpu k = (.ok rs, k') ∧ rs.length ≤ n
  | 0, cpu, k, _ => ⟨_, _, rfl, by simp⟩
  | n + 1, cpu, k, h => by
    obtain ⟨g1, g2, g3, g4⟩ := h cpu (Nat.le_refl _) (by omega)
    have ih := fun k => ringLoop_ok kn buf opts hwm n (cpu + 1) k (fun c h1 h2 => h c (by omega) (by omega))
    unfold ringLoop newPerfEventRing
    rw [if_neg (by omega)]
    cases hp : kn.perfEventOpen cpu with
    | err => exact absurd hp g1
    | enodev =>
      simp only [create]
      obtain ⟨rs, k', e, hl⟩ := ih k
      exact ⟨rs, k', e, by omega⟩
    | ok =>
      simp only [create, g2, g3, g4, pollerAdd]
      obtain ⟨rs, k', e, hl⟩ := ih { next := k.next + 1 + 1, live := (k.next + 1, Obj.perfMap k.next (perfBufferSize kn.pageSize buf) !opts.overwritable) :: (k.next, Obj.event (eventAttr cpu opts)) :: k.live, nonblock := k.next :: k.nonblock, polled := k.next :: k.polled, array := k.array }
      rw [e]
      exact ⟨_, _, rfl, by simp; omega⟩

theorem resume_ok (kn : Kernel) : ∀ (rs : List Ring) (i : Nat) (k : K), (∀ j, i ≤ j → j < i + rs.length → kn.put j = .ok) → ∃ k', resume kn i rs k = (none, k')
  | [], i, k, _ => ⟨k, rfl⟩
  | r :: rs, i, k, h => by
    unfold resume
    rw [h i (Nat.le_refl _) (by simp)]
    exact resume_ok kn rs (i + 1) _ (fun j h1 h2 => h j (by omega) (by simp only [List.length_cons]; omega))

/-- **C96.** With acceptable arguments, and if the kernel grants everything, opening a perf reader succeeds, whichever CPUs are offline. -/
theorem perf_open_succeeds (kn : Kernel) (nCPU : Nat) (buf : Int) (opts : Opts) (k : K) (ha : GoodPerfArgs buf opts) (hg : Grants kn nCPU) :
    ∃ pr k', newPerfReader kn nCPU buf opts k = (.ok pr, k') := by
  obtain ⟨a1, a2, a3⟩ := ha
  obtain ⟨g1, g2, g3, g4, g5, g6, g7, g8⟩ := hg
  unfold newPerfReader
  rw [if_neg (by omega), if_neg (by simpa using a3)]
  obtain ⟨p, k1, e1⟩ := pollerNew_ok kn k ⟨g1, g2, g3, g4, g5⟩
  obtain ⟨rs, k2, e2, hl⟩ := ringLoop_ok kn buf.toNat opts (by omega) nCPU 0 k1 (fun c _ hc => g8 c (by omega))
  rw [e1]; dsimp only
  rw [e2]; dsimp only
  simp only [create, g6]
  obtain ⟨k4, e4⟩ := resume_ok kn rs 0 { k2 with next := k2.next + 1, live := (k2.next, .array) :: k2.live } (fun j _ hj => g7 j (by omega))
  rw [e4]
  exact ⟨_, _, rfl⟩

/-- **C96.** Other arguments are refused: an empty or negative buffer and both limits at once outright; a watermark which the buffer can't hold, if there is any CPU online. -/
theorem perf_open_refuses (kn : Kernel) (nCPU : Nat) (buf : Int) (opts : Opts) (k k' : K) (pr : Reader) (hw : Wf k)
    (h : newPerfReader kn nCPU buf opts k = (.ok pr, k')) : 1 ≤ buf ∧ ¬ (0 < opts.wakeupEvents ∧ 0 < opts.watermark) ∧ (0 < nCPU → opts.watermark < buf) := by
  obtain ⟨s0, s1, _⟩ := newPerf_spec kn nCPU buf opts k k' hw _ h
  refine ⟨s0, s1, fun hn => ?_⟩
  rcases Int.lt_or_le opts.watermark buf with hlt | hge
  · exact hlt
  · exfalso
    unfold newPerfReader at h
    rw [if_neg (by omega), if_neg (by simpa using s1)] at h
    cases h1 : pollerNew kn k with
    | mk r1 k1 =>
      rw [h1] at h
      cases r1 with
      | error e => dsimp only at h; cases h
      | ok p =>
        dsimp only at h
        obtain ⟨n, rfl⟩ : ∃ n, nCPU = n + 1 := ⟨nCPU - 1, by omega⟩
        have : ringLoop kn buf.toNat opts (n + 1) 0 k1 = (.error .badArgument, k1) := by
          unfold ringLoop newPerfEventRing
          rw [if_pos (by omega)]
        rw [this] at h
        dsimp only at h
        cases h

/-! ## Ring buffer -/

theorem newRingBuf_spec (kn : Kernel) (size : Nat) (k k' : K) (hw : Wf k) (r : Except Err (Nat × Nat × Nat)) (h : newRingBufEventRing kn size k = (r, k')) :
    k.next ≤ k'.next ∧ k'.polled = k.polled ∧ k'.array = k.array ∧
    match r with
    | .error _ => SameOpen k k'
    | .ok (c, p, n) => n = size ∧ Opened k k' [(c, .ringMap 0 kn.pageSize true), (p, .ringMap kn.pageSize (kn.pageSize + 2 * size) false)] ∧ c < k'.next ∧ p < k'.next := by
  unfold newRingBufEventRing at h
  cases h1 : create (kn.mmap 0) (.ringMap 0 kn.pageSize true) k with
  | mk r1 k1 =>
    rw [h1] at h
    cases r1 with
    | error e =>
      dsimp only at h
      cases h
      obtain ⟨rfl, _⟩ := create_err h1
      exact ⟨Nat.le_refl _, rfl, rfl, fun p => Iff.rfl⟩
    | ok c =>
      obtain ⟨_, e1, n1, l1, _, p1, a1⟩ := create_ok h1
      dsimp only at h
      have o1 := opened_create e1 l1
      cases h2 : create (kn.mmap 1) (.ringMap kn.pageSize (kn.pageSize + 2 * size) false) k1 with
      | mk r2 k2 =>
        rw [h2] at h
        cases r2 with
        | error e =>
          dsimp only at h
          cases h
          obtain ⟨rfl, _⟩ := create_err h2
          exact ⟨by rw [release_next]; omega, p1, a1, closed_all hw o1 [c] (fun p => by rw [mem_release]; simp) (by simp) (by simp [e1])⟩
        | ok p =>
          obtain ⟨_, e2, n2, l2, _, p2, a2⟩ := create_ok h2
          dsimp only at h
          cases h
          exact ⟨by omega, p2.trans p1, a2.trans a1, by omega, opened_trans (by omega) o1 (opened_create e2 l2) (by simp; omega), by omega, by omega⟩

/-- `IsPow`. -/
theorem isPow_iff (n : Nat) : isPow n = true ↔ ∃ j, n = 2 ^ j := by
  unfold isPow
  simp only [Bool.and_eq_true, bne_iff_ne, ne_eq, beq_iff_eq]
  constructor
  · rintro ⟨h0, h⟩
    refine ⟨Nat.log2 n, ?_⟩
    have hlo := Nat.log2_self_le h0
    have hhi := Nat.lt_log2_self (n := n)
    rcases Nat.lt_or_ge (2 ^ Nat.log2 n) n with hlt | hge
    · exfalso
      have ht : (n &&& (n - 1)).testBit (Nat.log2 n) = true := by
        rw [Nat.testBit_and, Bool.and_eq_true]
        have bit : ∀ x, 2 ^ Nat.log2 n ≤ x → x < 2 ^ (Nat.log2 n + 1) → x.testBit (Nat.log2 n) = true := by
          intro x h1 h2
          rw [Nat.testBit_eq_decide_div_mod_eq, decide_eq_true_eq]
          have hp : 0 < 2 ^ Nat.log2 n := Nat.pos_of_ne_zero (by simp)
          have : x / 2 ^ Nat.log2 n = 1 := by
            rw [Nat.div_eq_iff hp]
            rw [Nat.pow_succ] at h2; omega
          rw [this]
        exact ⟨bit n hlo hhi, bit (n - 1) (by omega) (by omega)⟩
      rw [h] at ht
      simp at ht
    · omega
  · rintro ⟨j, rfl⟩
    refine ⟨by simp, Nat.eq_of_testBit_eq fun i => ?_⟩
    rw [Nat.testBit_and, Nat.testBit_two_pow, Nat.testBit_two_pow_sub_one]
    by_cases h : j = i <;> simp [h]

/-- What `NewRawReader` does. -/
theorem newRaw_spec (kn : Kernel) (isRingbuf : Bool) (fd size : Nat) (k k' : K) (hw : Wf k) (r : Except Err RawReader) (h : newRawReader kn isRingbuf fd size k = (r, k')) :
    k'.array = k.array ∧
    match r with
    | .error _ => SameOpen k k'
    | .ok rr => isRingbuf = true ∧ isPow size = true ∧ rr.bufferSize = size ∧ fd ∈ k'.polled ∧ Wf k' ∧
        Opened k k' (pollerObjs rr.poller ++ [(rr.cons, .ringMap 0 kn.pageSize true), (rr.prod, .ringMap kn.pageSize (kn.pageSize + 2 * size) false)]) := by
  unfold newRawReader at h
  split at h
  · cases h; exact ⟨rfl, fun p => Iff.rfl⟩
  · rename_i hrb
    split at h
    · cases h; exact ⟨rfl, fun p => Iff.rfl⟩
    · rename_i hsz
      cases h1 : pollerNew kn k with
      | mk r1 k1 =>
        rw [h1] at h
        obtain ⟨n1, b1, a1, s1⟩ := pollerNew_spec kn k k1 hw r1 h1
        cases r1 with
        | error e => dsimp only at h; cases h; exact ⟨a1, s1⟩
        | ok p =>
          obtain ⟨o1, t1, _, _⟩ := s1
          have hw1 : Wf k1 := wf_of_opened hw o1 n1 t1
          dsimp only at h
          have hnew : ∀ i ∈ [p.epoll, p.closeEvent, p.flushEvent], k.next ≤ i := by
            have := o1.2.1
            simp only [pollerObjs, List.mem_cons, List.not_mem_nil, or_false, forall_eq_or_imp, forall_eq] at this ⊢
            exact this
          have closes : ∀ kk, SameOpen k1 kk → SameOpen k (pollerClose p kk) := fun kk hkk =>
            closed_all hw o1 [p.epoll, p.closeEvent, p.flushEvent] (fun q => by rw [mem_pollerClose, hkk q]) (by simp [pollerObjs]) hnew
          cases h2 : pollerAdd (kn.addEvent 0) fd k1 with
          | mk r2 k2 =>
            obtain ⟨l2, n2, b2, a2, _, p2, _⟩ := add_live h2
            rw [h2] at h
            cases r2 with
            | some e =>
              dsimp only at h; cases h
              exact ⟨a2.trans a1, closes _ (fun q => by rw [l2])⟩
            | none =>
              dsimp only at h
              have hw2 : Wf k2 := fun q hq => by rw [n2]; rw [l2] at hq; exact hw1 q hq
              cases h3 : newRingBufEventRing kn size k2 with
              | mk r3 k3 =>
                rw [h3] at h
                obtain ⟨n3, p3, a3, s3⟩ := newRingBuf_spec kn size k2 k3 hw2 r3 h3
                cases r3 with
                | error e =>
                  dsimp only at h; cases h
                  exact ⟨a3.trans (a2.trans a1), closes _ (fun q => by rw [s3 q, l2])⟩
                | ok t =>
                  obtain ⟨c, pp, n⟩ := t
                  dsimp only at h; cases h
                  obtain ⟨rfl, o3, t3, t4⟩ := s3
                  have o2 : Opened k k2 (pollerObjs p) := ⟨fun q => by rw [l2]; exact o1.1 q, o1.2.1, o1.2.2⟩
                  refine ⟨a3.trans (a2.trans a1), by simpa using hrb, ?_, rfl, ?_, ?_, opened_trans (by omega) o2 o3 (fun q hq => by rw [n2]; exact t1 q hq)⟩
                  · rcases hb : isPow n with _ | _
                    · exact absurd (.inr hb) hsz
                    · rfl
                  · rw [p3, p2 rfl]; simp
                  · refine wf_of_opened hw2 o3 n3 ?_
                    simp [t3, t4]

/-- **C96.** A ring buffer reader is opened on ring buffers only, whose size is a power of two. It maps the consumer page writable, and the producer page with the data twice over read-only; and
polls the map. Nothing else is opened. -/
theorem ringbuf_open (kn : Kernel) (isRingbuf : Bool) (fd size : Nat) (k k' : K) (hw : Wf k) (rr : RawReader) (h : newRawReader kn isRingbuf fd size k = (.ok rr, k')) :
    isRingbuf = true ∧ (∃ j, size = 2 ^ j) ∧ rr.bufferSize = size ∧ fd ∈ k'.polled ∧
    Opened k k' (pollerObjs rr.poller ++ [(rr.cons, .ringMap 0 kn.pageSize true), (rr.prod, .ringMap kn.pageSize (kn.pageSize + 2 * size) false)]) := by
  obtain ⟨_, s1, s2, s3, s4, _, s5⟩ := newRaw_spec kn isRingbuf fd size k k' hw _ h
  exact ⟨s1, (isPow_iff size).1 s2, s3, s4, s5⟩

/-- **C96.** With a ring buffer, and if the kernel grants everything, opening a reader succeeds. -/
theorem ringbuf_open_succeeds (kn : Kernel) (fd j : Nat) (k : K)
    (hg : kn.epollCreate = .ok ∧ kn.eventfd 0 = .ok ∧ kn.eventfd 1 = .ok ∧ kn.epollAdd 0 = .ok ∧ kn.epollAdd 1 = .ok) (ha : kn.addEvent 0 = .ok) (h0 : kn.mmap 0 = .ok) (h1 : kn.mmap 1 = .ok) :
    ∃ rr k', newRawReader kn true fd (2 ^ j) k = (.ok rr, k') := by
  unfold newRawReader
  obtain ⟨p, k1, e1⟩ := pollerNew_ok kn k hg
  have hp : isPow (2 ^ j) = true := (isPow_iff _).2 ⟨j, rfl⟩
  rw [if_neg (by simp), if_neg (by simp [hp]), e1]
  simp [pollerAdd, ha, newRingBufEventRing, create, h0, h1]

/-- **C96.** If opening a ring buffer reader fails, everything opened on the way is closed. -/
theorem ringbuf_open_failure (kn : Kernel) (isRingbuf : Bool) (fd size : Nat) (k k' : K) (hw : Wf k) (e : Err)
    (h : newRawReader kn isRingbuf fd size k = (.error e, k')) : SameOpen k k' := (newRaw_spec kn isRingbuf fd size k k' hw _ h).2

/-- **C96.** Closing a ring buffer reader closes all that opening it has opened, and nothing else. -/
theorem ringbuf_close (kn : Kernel) (isRingbuf : Bool) (fd size : Nat) (k k' : K) (hw : Wf k) (rr : RawReader) (h : newRawReader kn isRingbuf fd size k = (.ok rr, k'))
    (k1 : K) (other : List (Nat × Obj)) (hlater : Opened k' k1 other) : ∀ p, p ∈ (rawClose rr k1).live ↔ p ∈ k.live ∨ p ∈ other := by
  obtain ⟨_, _, _, _, _, hw', s⟩ := newRaw_spec kn isRingbuf fd size k k' hw _ h
  intro p
  unfold rawClose
  rw [mem_release, mem_release, mem_pollerClose, hlater.1, s.1]
  have hb : ∀ q ∈ pollerObjs rr.poller ++ [(rr.cons, Obj.ringMap 0 kn.pageSize true), (rr.prod, .ringMap kn.pageSize (kn.pageSize + 2 * size) false)], k.next ≤ q.1 ∧ q.1 < k'.next :=
    fun q hq => ⟨s.2.1 q hq, hw' q ((s.1 q).2 (.inr hq))⟩
  simp only [pollerObjs, List.cons_append, List.nil_append, List.mem_cons, List.not_mem_nil, or_false, forall_eq_or_imp, forall_eq] at hb ⊢
  have hp1 : p ∈ k.live → p.1 < k.next := hw p
  have hp2 : p ∈ other → k'.next ≤ p.1 := hlater.2.1 p
  obtain ⟨b1, b2, b3, b4, b5⟩ := hb
  constructor
  · rintro ⟨⟨⟨(hp | rfl | rfl | rfl | rfl | rfl) | hp, n1⟩, n2⟩, n3⟩ <;> simp_all
  · rintro (hp | hp)
    · have := hp1 hp
      exact ⟨⟨⟨.inl (.inl hp), by omega⟩, by omega⟩, by omega⟩
    · have := hp2 hp
      exact ⟨⟨⟨.inr hp, by omega⟩, by omega⟩, by omega⟩

/-! ## Examples -/

/-- A process with three descriptors, on a machine with CPU 1 offline. -/
def exK : K := { next := 10, live := [(0, .eventfd), (1, .eventfd), (2, .eventfd)], nonblock := [], polled := [], array := [] }

/-- The kernel of the example. -/
def exKernel : Kernel :=
  { epollCreate := .ok, eventfd := fun _ => .ok, epollAdd := fun _ => .ok, perfEventOpen := fun c => if c = 1 then .enodev else .ok, setNonblock := fun _ => .ok,
    mmap := fun _ => .ok, addEvent := fun _ => .ok, dup := .ok, put := fun _ => .ok, pageSize := 4096 }

example : Wf exK := by unfold Wf exK; decide

example : GoodPerfArgs 8192 ⟨0, 100, false⟩ ∧ Grants exKernel 3 := by
  refine ⟨by unfold GoodPerfArgs; decide, rfl, rfl, rfl, rfl, rfl, rfl, fun _ _ => rfl, fun c _ => ⟨?_, rfl, rfl, rfl⟩⟩
  simp only [exKernel]
  split <;> simp

/-- Three CPUs, the second offline: two rings; the event of CPU 2 is at index 1 (see C23). -/
example : ((newPerfReader exKernel 3 8192 ⟨0, 100, false⟩ exK).1.toOption.map fun pr => pr.rings.map (·.cpu)) = some [0, 2] ∧
    (newPerfReader exKernel 3 8192 ⟨0, 100, false⟩ exK).2.array = [(1, 15), (0, 13)] := by decide

example : perfBufferSize 4096 8193 = 5 * 4096 := by decide

/-- **C96.** The copy of the array's descriptor is not closed if the array refuses an entry. -/
theorem perf_open_leak : ∃ (kn : Kernel) (k : K), Wf k ∧ (newPerfReader kn 2 4096 ⟨0, 0, false⟩ k).1 = .error .other ∧
    ¬ SameOpen k (newPerfReader kn 2 4096 ⟨0, 0, false⟩ k).2 := by
  refine ⟨{ exKernel with put := fun _ => .err }, exK, by unfold Wf exK; decide, by decide, fun h => ?_⟩
  have := (h (15, .array)).1 (by decide)
  revert this
  decide

example : ∃ rr k', newRawReader exKernel true 7 4096 exK = (.ok rr, k') := ringbuf_open_succeeds exKernel 7 12 exK ⟨rfl, rfl, rfl, rfl, rfl⟩ rfl rfl rfl

end Ebpf.OpenReader
