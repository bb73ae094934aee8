import Verif.Model.AttachLinks
import Verif.Spec.AttachLinks
/-!
# C89: links are created for what was asked, or not at all
-/
namespace Ebpf.AttachLinks
open Ebpf.AttachLinksSpec

section
variable (k : Kern) (own : Nat → Nat) (w : W)

theorem create_ok (r : Req) (w' : W) (fd : Nat) (h : create k w r = (w', .ok fd)) :
    fd = w.next ∧ w'.log = w.log ++ [(r, true)] ∧ w'.fds = fd :: w.fds ∧ w'.next = w.next + 1 ∧ k.fail w.t r = none := by
  unfold create at h
  split at h
  · simp at h
  · rename_i hn
    simp only [Prod.mk.injEq, Except.ok.injEq] at h
    rw [← h.1, ← h.2]
    exact ⟨rfl, rfl, rfl, rfl, hn⟩

theorem create_err (r : Req) (w' : W) (e : Nat) (h : create k w r = (w', .error e)) :
    w'.log = w.log ++ [(r, false)] ∧ w'.fds = w.fds ∧ w'.next = w.next ∧ k.fail w.t r = some e := by
  unfold create at h
  split at h
  · rename_i e' hn
    simp only [Prod.mk.injEq, Except.error.injEq] at h
    rw [← h.1, ← h.2]
    exact ⟨rfl, rfl, rfl, hn⟩
  · simp at h

theorem fresh (hf : Fine w) : w.next ∉ w.fds := fun h => Nat.lt_irrefl _ (hf _ h)

theorem rawLink_spec (target : Option Nat) (prog : Obj) (attach btf flags : Nat) :
    (∀ w' fd, attachRawLink k w target prog attach btf flags = (w', .ok fd) → ∃ t p, target = some t ∧ prog.fd = some p ∧ fd = w.next ∧
      w'.log = w.log ++ [(.link p t attach flags btf, true)] ∧ w'.fds = fd :: w.fds) ∧
    (∀ w' e, attachRawLink k w target prog attach btf flags = (w', .error e) → w'.fds = w.fds) := by
  unfold attachRawLink
  cases hft : k.feature w.t with
  | some e => exact ⟨fun w' fd h => by simp at h, fun w' e' h => by simp only [Prod.mk.injEq] at h; rw [← h.1]⟩
  | none =>
    cases target with
    | none => exact ⟨fun w' fd h => by simp at h, fun w' e' h => by simp only [Prod.mk.injEq] at h; rw [← h.1]⟩
    | some t =>
      cases hp : prog.fd with
      | none => exact ⟨fun w' fd h => by simp at h, fun w' e' h => by simp only [Prod.mk.injEq] at h; rw [← h.1]⟩
      | some p =>
        simp only
        cases hc : create k { w with t := w.t + 1 } (.link p t attach flags btf) with
        | mk w1 r =>
          cases r with
          | error e =>
            refine ⟨fun w' fd h => by simp at h, fun w' e' h => ?_⟩
            simp only [Prod.mk.injEq] at h
            rw [← h.1]
            exact (create_err _ _ _ _ _ hc).2.1
          | ok fd =>
            refine ⟨fun w' fd' h => ?_, fun w' e' h => by simp at h⟩
            simp only [Prod.mk.injEq, Except.ok.injEq] at h
            obtain ⟨h1, h2, h3, _, _⟩ := create_ok _ _ _ _ _ hc
            rw [← h.1, ← h.2]
            exact ⟨t, p, rfl, rfl, h1, h2, h3⟩

theorem created_of_log (hf : Fine w) (w' : W) (l : Lnk) (p : Nat) (h : Hook) (r : Req) (hl : w'.log = w.log ++ [(r, true)]) (hm : meaning own r = some (p, h))
    (hfd : fdOf l = w.next) (hfds : w'.fds = fdOf l :: w.fds) : Created own w w' l p h :=
  ⟨[], r, by simpa using hl, by simp, hm, hfds, by rw [hfd]; exact fresh w hf⟩

/-- **C89.** AttachRawLink. -/
theorem rawLink_exact (hf : Fine w) (target : Option Nat) (prog : Obj) (attach btf flags : Nat) :
    (∀ w' fd, attachRawLink k w target prog attach btf flags = (w', .ok fd) →
      ∃ t p, target = some t ∧ prog.fd = some p ∧ Created own w w' (.raw fd) p (.target t attach flags btf)) ∧
    (∀ w' e, attachRawLink k w target prog attach btf flags = (w', .error e) → w'.fds = w.fds) := by
  obtain ⟨h1, h2⟩ := rawLink_spec k w target prog attach btf flags
  refine ⟨fun w' fd h => ?_, h2⟩
  obtain ⟨t, p, g1, g2, g3, g4, g5⟩ := h1 w' fd h
  exact ⟨t, p, g1, g2, created_of_log own w hf w' (.raw fd) p _ _ g4 rfl g3 g5⟩

/-- **C89.** AttachXDP attaches XDP programs to that interface. -/
theorem xdp_exact (hf : Fine w) (prog : Obj) (iface : Int) (flags : Nat) :
    (∀ w' l, attachXDP k w prog iface flags = (w', .ok l) → prog.typ = 6 ∧ ∃ (n : Nat) (p : Nat), iface = n ∧ 0 < n ∧ prog.fd = some p ∧ l = .xdp (fdOf l) ∧
      Created own w w' l p (.target n 37 flags 0)) ∧
    (∀ w' e, attachXDP k w prog iface flags = (w', .error e) → w'.fds = w.fds) := by
  unfold attachXDP
  split
  · exact ⟨fun w' l h => by simp at h, fun w' e h => by simp only [Prod.mk.injEq] at h; rw [← h.1]⟩
  · rename_i ht
    split
    · exact ⟨fun w' l h => by simp at h, fun w' e h => by simp only [Prod.mk.injEq] at h; rw [← h.1]⟩
    · rename_i hi
      obtain ⟨h1, h2⟩ := rawLink_spec k w (some iface.toNat) prog 37 0 flags
      cases hc : attachRawLink k w (some iface.toNat) prog 37 0 flags with
      | mk w1 r =>
        cases r with
        | error e => exact ⟨fun w' l h => by simp at h, fun w' e' h => by simp only [Prod.mk.injEq] at h; rw [← h.1]; exact h2 _ _ hc⟩
        | ok fd =>
          refine ⟨fun w' l h => ?_, fun w' e' h => by simp at h⟩
          simp only [Prod.mk.injEq, Except.ok.injEq] at h
          rw [← h.1, ← h.2]
          obtain ⟨t, p, g1, g2, g3, g4, g5⟩ := h1 _ _ hc
          simp only [Option.some.injEq] at g1
          exact ⟨by omega, iface.toNat, p, by omega, by omega, g2, rfl, created_of_log own w hf _ (.xdp fd) p _ _ g4 (by rw [g1]; rfl) g3 g5⟩

/-- **C89.** AttachNetNs attaches flow dissectors and socket lookup programs, each with its attach type. -/
theorem netNs_exact (hf : Fine w) (ns : Option Nat) (prog : Obj) :
    (∀ w' l, attachNetNs k w ns prog = (w', .ok l) → ∃ n p a, ns = some n ∧ prog.fd = some p ∧ (prog.typ, a) ∈ [(22, 17), (30, 36)] ∧ l = .netNs (fdOf l) ∧
      Created own w w' l p (.target n a 0 0)) ∧
    (∀ w' e, attachNetNs k w ns prog = (w', .error e) → w'.fds = w.fds) := by
  unfold attachNetNs
  split
  · exact ⟨fun w' l h => by simp at h, fun w' e h => by simp only [Prod.mk.injEq] at h; rw [← h.1]⟩
  · rename_i a ha
    obtain ⟨h1, h2⟩ := rawLink_spec k w ns prog a 0 0
    cases hc : attachRawLink k w ns prog a 0 0 with
    | mk w1 r =>
      cases r with
      | error e => exact ⟨fun w' l h => by simp at h, fun w' e' h => by simp only [Prod.mk.injEq] at h; rw [← h.1]; exact h2 _ _ hc⟩
      | ok fd =>
        refine ⟨fun w' l h => ?_, fun w' e' h => by simp at h⟩
        simp only [Prod.mk.injEq, Except.ok.injEq] at h
        rw [← h.1, ← h.2]
        obtain ⟨t, p, g1, g2, g3, g4, g5⟩ := h1 _ _ hc
        refine ⟨t, p, a, g1, g2, ?_, rfl, created_of_log own w hf _ (.netNs fd) p _ _ g4 rfl g3 g5⟩
        split at ha
        · simp at ha; simp_all
        · split at ha
          · simp at ha; simp_all
          · simp at ha

/-- **C89.** AttachFreplace replaces the named function of the target program, or, without target and name, the function given when the program was loaded. -/
theorem freplace_exact (hf : Fine w) (target : Option (Obj × Except E Nat)) (name : String) (prog : Option Obj) :
    (∀ w' l, attachFreplace k w target name prog = (w', .ok l) → ∃ o p, prog = some o ∧ o.typ = 28 ∧ o.fd = some p ∧ l = .tracing (fdOf l) ∧
      ((target = none ∧ name = "" ∧ Created own w w' l p (.target 0 0 0 0)) ∨
       ∃ t tfd id, target = some (t, .ok id) ∧ name ≠ "" ∧ t.fd = some tfd ∧ Created own w w' l p (.target tfd 0 0 id))) ∧
    (∀ w' e, attachFreplace k w target name prog = (w', .error e) → w'.fds = w.fds) := by
  have triv : ∀ (e : E), (∀ w' l, (w, (Except.error e : Except E Lnk)) = (w', .ok l) → ∃ o p, prog = some o ∧ o.typ = 28 ∧ o.fd = some p ∧ l = .tracing (fdOf l) ∧
      ((target = none ∧ name = "" ∧ Created own w w' l p (.target 0 0 0 0)) ∨
       ∃ t tfd id, target = some (t, .ok id) ∧ name ≠ "" ∧ t.fd = some tfd ∧ Created own w w' l p (.target tfd 0 0 id))) ∧
      (∀ w' e', (w, (Except.error e : Except E Lnk)) = (w', .error e') → w'.fds = w.fds) := by
    intro e
    exact ⟨fun w' l h => by simp at h, fun w' e' h => by simp only [Prod.mk.injEq] at h; rw [← h.1]⟩
  unfold attachFreplace
  split
  · exact triv _
  · rename_i hne
    cases prog with
    | none => exact triv _
    | some o =>
      simp only
      split
      · exact triv _
      · rename_i hty
        have hty : o.typ = 28 := by omega
        have fin : ∀ (tfd : Option Nat) (id : Nat), (∀ w' l p tt, o.fd = some p → tfd = some tt → Created own w w' l p (.target tt 0 0 id) →
            ((target = none ∧ name = "" ∧ Created own w w' l p (.target 0 0 0 0)) ∨
             ∃ t tfd id, target = some (t, .ok id) ∧ name ≠ "" ∧ t.fd = some tfd ∧ Created own w w' l p (.target tfd 0 0 id))) →
            (∀ w' l, freplaceResult (attachRawLink k w tfd o 0 id 0) = (w', .ok l) → ∃ o' p, some o = some o' ∧ o'.typ = 28 ∧ o'.fd = some p ∧ l = .tracing (fdOf l) ∧
              ((target = none ∧ name = "" ∧ Created own w w' l p (.target 0 0 0 0)) ∨
               ∃ t tfd id, target = some (t, .ok id) ∧ name ≠ "" ∧ t.fd = some tfd ∧ Created own w w' l p (.target tfd 0 0 id))) ∧
            (∀ w' e, freplaceResult (attachRawLink k w tfd o 0 id 0) = (w', .error e) → w'.fds = w.fds) := by
          intro tfd id hfin
          obtain ⟨h1, h2⟩ := rawLink_spec k w tfd o 0 id 0
          cases hc : attachRawLink k w tfd o 0 id 0 with
          | mk w1 r =>
            cases r with
            | error e =>
              have hw := h2 _ _ hc
              simp only [freplaceResult]
              refine ⟨fun w' l h => ?_, fun w' e' h => ?_⟩
              · split at h <;> simp at h
              · split at h <;> (simp only [Prod.mk.injEq] at h; rw [← h.1]; exact hw)
            | ok fd =>
              refine ⟨fun w' l h => ?_, fun w' e' h => by simp [freplaceResult] at h⟩
              simp only [freplaceResult, Prod.mk.injEq, Except.ok.injEq] at h
              rw [← h.1, ← h.2]
              obtain ⟨t, p, g1, g2, g3, g4, g5⟩ := h1 _ _ hc
              exact ⟨o, p, rfl, hty, g2, rfl, hfin _ (.tracing fd) p t g2 g1 (created_of_log own w hf _ (.tracing fd) p _ _ g4 rfl g3 g5)⟩
        cases target with
        | none =>
          refine fin (some 0) 0 ?_
          intro w' l p tt _ htt hcr
          simp only [Option.some.injEq] at htt
          subst htt
          refine Or.inl ⟨rfl, ?_, hcr⟩
          simpa using hne
        | some x =>
          obtain ⟨t, r⟩ := x
          cases r with
          | error e => exact triv _
          | ok id =>
            refine fin t.fd id ?_
            intro w' l p tt _ htt hcr
            refine Or.inr ⟨t, tt, id, rfl, ?_, htt, hcr⟩
            simpa using hne

/-! ### Tracing -/

theorem close_new (w0 w1 : W) (h0 : w0.next ∉ w0.fds) (h : w1.fds = w0.next :: w0.fds) : (close w1 w0.next).fds = w0.fds := by
  simp only [close, h, List.filter_cons, bne_self_eq_false, Bool.false_eq_true, if_false]
  rw [List.filter_eq_self]
  intro x hx
  have : x ≠ w0.next := fun e => h0 (e ▸ hx)
  simp [this]

/-- After a request has been accepted: the link, or nothing is left. -/
theorem tracingLink_spec (w1 : W) (fd : Nat) :
    (∀ w' l, tracingLink k w1 fd = (w', .ok l) → w'.log = w1.log ∧ w'.fds = w1.fds ∧ fdOf l = fd ∧ (l = .rawTracepoint fd ↔ k.linkType fd = 1) ∧ (l = .tracing fd ↔ k.linkType fd ≠ 1)) ∧
    (∀ w' e, tracingLink k w1 fd = (w', .error e) → w'.fds = (close w1 fd).fds) := by
  unfold tracingLink
  split
  · exact ⟨fun w' l h => by simp at h, fun w' e h => by simp only [Prod.mk.injEq] at h; rw [← h.1]; rfl⟩
  · split
    · rename_i ht
      refine ⟨fun w' l h => ?_, fun w' e h => by simp at h⟩
      simp only [Prod.mk.injEq, Except.ok.injEq] at h
      rw [← h.1, ← h.2]
      exact ⟨rfl, rfl, rfl, by simp [ht], by simp [ht]⟩
    · rename_i ht
      refine ⟨fun w' l h => ?_, fun w' e h => by simp at h⟩
      simp only [Prod.mk.injEq, Except.ok.injEq] at h
      rw [← h.1, ← h.2]
      exact ⟨rfl, rfl, rfl, by simp [ht], by simp [ht]⟩

theorem noLink_spec (w0 : W) (hf : Fine w0) (p cookie : Nat) (tried : List (Req × Bool)) (htr : ∀ x ∈ tried, x.2 = false) (hl : w.log = w0.log ++ tried) (hfd : w.fds = w0.fds) (hn : w.next = w0.next) :
    (∀ w' l, attachNoLink k w p cookie = (w', .ok l) → cookie = 0 ∧ Created own w0 w' l p (.own 0) ∧ fdOf l = w0.next ∧ (l = .rawTracepoint (fdOf l) ↔ k.linkType (fdOf l) = 1) ∧ (l = .tracing (fdOf l) ↔ k.linkType (fdOf l) ≠ 1)) ∧
    (∀ w' e, attachNoLink k w p cookie = (w', .error e) → w'.fds = w0.fds) := by
  unfold attachNoLink
  split
  · exact ⟨fun w' l h => by simp at h, fun w' e h => by simp only [Prod.mk.injEq] at h; rw [← h.1]; exact hfd⟩
  · rename_i hck
    cases hc : create k w (.rawTp none p) with
    | mk w1 r =>
      cases r with
      | error e =>
        have hw := (create_err _ _ _ _ _ hc).2.1
        refine ⟨fun w' l h => ?_, fun w' e' h => ?_⟩
        · split at h
          · simp at h
          · simp at h
          · rename_i heq; simp at heq
        · split at h
          · rename_i heq; simp only [Prod.mk.injEq] at h heq; rw [← h.1, ← heq.1, hw, hfd]
          · rename_i heq; simp only [Prod.mk.injEq] at h heq; rw [← h.1, ← heq.1, hw, hfd]
          · rename_i heq; simp at heq
      | ok fd =>
        simp only
        obtain ⟨c1, c2, c3, c4, c5⟩ := create_ok _ _ _ _ _ hc
        obtain ⟨t1, t2⟩ := tracingLink_spec k w1 fd
        rw [hn] at c1
        rw [hfd] at c3
        refine ⟨fun w' l h => ?_, fun w' e h => ?_⟩
        · obtain ⟨g1, g2, g3, g4, g5⟩ := t1 w' l h
          rw [g3]
          refine ⟨by omega, ⟨tried, _, by rw [g1, c2, hl], htr, rfl, by rw [g2, c3, g3], by rw [g3, c1]; exact fresh w0 hf⟩, c1, g4, g5⟩
        · rw [t2 w' e h, c1]
          rw [c1] at c3
          exact close_new w0 w1 (fresh w0 hf) c3

theorem btfid_spec (hf : Fine w) (hk : Consistent own k) (prog : Obj) (at_ cookie : Nat) :
    (∀ w' l, attachBTFID k w prog at_ cookie = (w', .ok l) → ∃ p, prog.fd = some p ∧ Created own w w' l p (.own cookie) ∧
      (l = .rawTracepoint (fdOf l) ↔ k.linkType (fdOf l) = 1) ∧ (l = .tracing (fdOf l) ↔ k.linkType (fdOf l) ≠ 1)) ∧
    (∀ w' e, attachBTFID k w prog at_ cookie = (w', .error e) → w'.fds = w.fds) := by
  unfold attachBTFID
  cases hp : prog.fd with
  | none => exact ⟨fun w' l h => by simp at h, fun w' e h => by simp only [Prod.mk.injEq] at h; rw [← h.1]⟩
  | some p =>
    simp only
    split
    · cases hc : create k w (.tracing p at_ cookie) with
      | mk w1 r =>
        cases r with
        | ok fd =>
          simp only
          obtain ⟨c1, c2, c3, c4, c5⟩ := create_ok _ _ _ _ _ hc
          obtain ⟨t1, t2⟩ := tracingLink_spec k w1 fd
          refine ⟨fun w' l h => ?_, fun w' e h => ?_⟩
          · obtain ⟨g1, g2, g3, g4, g5⟩ := t1 w' l h
            have hm := hk _ _ c5
            simp only [meaning] at hm
            split at hm
            · rename_i hown
              rw [g3]
              exact ⟨p, rfl, ⟨[], .tracing p at_ cookie, by rw [g1, c2]; simp, by simp, by simp only [meaning]; rw [if_pos hown], by rw [g2, c3, g3], by rw [g3, c1]; exact fresh w hf⟩, g4, g5⟩
            · simp at hm
          · rw [t2 w' e h, c1]
            rw [c1] at c3
            exact close_new w w1 (fresh w hf) c3
        | error e =>
          simp only
          obtain ⟨c1, c2, c3, c4⟩ := create_err _ _ _ _ _ hc
          split
          · exact ⟨fun w' l h => by simp at h, fun w' e h => by simp only [Prod.mk.injEq] at h; rw [← h.1]; exact c2⟩
          · obtain ⟨n1, n2⟩ := noLink_spec k own w1 w hf p cookie [(.tracing p at_ cookie, false)] (by simp) c1 c2 c3
            refine ⟨fun w' l h => ?_, n2⟩
            obtain ⟨g1, g2, g3, g4, g5⟩ := n1 w' l h
            exact ⟨p, rfl, by rw [g1]; exact g2, g4, g5⟩
    · split
      · obtain ⟨n1, n2⟩ := noLink_spec k own w w hf p cookie [] (by simp) (by simp) rfl rfl
        refine ⟨fun w' l h => ?_, n2⟩
        obtain ⟨g1, g2, g3, g4, g5⟩ := n1 w' l h
        exact ⟨p, rfl, by rw [g1]; exact g2, g4, g5⟩
      · exact ⟨fun w' l h => by simp at h, fun w' e h => by simp only [Prod.mk.injEq] at h; rw [← h.1]⟩

/-- **C89.** AttachTracing and AttachLSM attach the program to the function it was loaded for, once, with the cookie given; a cookie is never dropped. The link has the right
Go type. If they fail, nothing stays attached. -/
theorem tracing_exact (hf : Fine w) (hk : Consistent own k) (prog : Obj) (at_ cookie : Nat) :
    (∀ w' l, attachTracing k w prog at_ cookie = (w', .ok l) ∨ attachLSM k w prog cookie = (w', .ok l) → (prog.typ = 26 ∨ prog.typ = 29) ∧ ∃ p, prog.fd = some p ∧ Created own w w' l p (.own cookie) ∧
      (l = .rawTracepoint (fdOf l) ↔ k.linkType (fdOf l) = 1) ∧ (l = .tracing (fdOf l) ↔ k.linkType (fdOf l) ≠ 1)) ∧
    (∀ w' e, attachTracing k w prog at_ cookie = (w', .error e) ∨ attachLSM k w prog cookie = (w', .error e) → w'.fds = w.fds) := by
  unfold attachTracing attachLSM
  refine ⟨fun w' l h => ?_, fun w' e h => ?_⟩
  · rcases h with h | h
    · split at h
      · simp at h
      · split at h
        · simp at h
        · exact ⟨by omega, (btfid_spec k own w hf hk prog at_ cookie).1 w' l h⟩
    · split at h
      · simp at h
      · exact ⟨by omega, (btfid_spec k own w hf hk prog 27 cookie).1 w' l h⟩
  · rcases h with h | h
    · split at h
      · simp only [Prod.mk.injEq] at h; rw [← h.1]
      · split at h
        · simp only [Prod.mk.injEq] at h; rw [← h.1]
        · exact (btfid_spec k own w hf hk prog at_ cookie).2 w' e h
    · split at h
      · simp only [Prod.mk.injEq] at h; rw [← h.1]
      · exact (btfid_spec k own w hf hk prog 27 cookie).2 w' e h

/-- Attaching works on kernels with either interface. -/
theorem tracing_succeeds (prog : Obj) (p at_ cookie : Nat) (hp : prog.fd = some p) (ht : prog.typ = 26) (ha : at_ ∈ [23, 24, 25, 26])
    (hi : ∀ t, k.infoFails t = false)
    (hk : (∀ t, k.fail t (.tracing p at_ cookie) = none) ∨ ((∀ t, k.fail t (.tracing p at_ cookie) = some 22 ∨ k.fail t (.tracing p at_ cookie) = some 524) ∧ cookie = 0 ∧ ∀ t, k.fail t (.rawTp none p) = none)) :
    ∃ w' l, attachTracing k w prog at_ cookie = (w', .ok l) := by
  have tl : ∀ w1 fd, ∃ w' l, tracingLink k w1 fd = (w', .ok l) := by
    intro w1 fd
    unfold tracingLink
    rw [hi]
    simp only [Bool.false_eq_true, if_false]
    split <;> exact ⟨_, _, rfl⟩
  have h1 : ([24, 25, 26, 23, 0] : List Nat).contains at_ = true := by simp at ha ⊢; omega
  have h2 : ([24, 25, 23, 26, 27] : List Nat).contains at_ = true := by simp at ha ⊢; omega
  simp only [attachTracing, ht, attachBTFID, hp, h1, h2, ne_eq, not_true_eq_false, if_false, Bool.not_true, Bool.false_eq_true, if_true]
  rcases hk with hk | ⟨hk, hc, hr⟩
  · simp only [create, hk]
    exact tl _ _
  · have : ∀ e, e = 22 ∨ e = 524 → ∃ w' l, (if e ≠ 22 ∧ e ≠ 524 then (({ w with t := w.t + 1, log := w.log ++ [(.tracing p at_ cookie, false)] } : W), (Except.error (E.sys e) : Except E Lnk))
        else attachNoLink k { w with t := w.t + 1, log := w.log ++ [(.tracing p at_ cookie, false)] } p cookie) = (w', .ok l) := by
      intro e he
      rw [if_neg (by omega)]
      simp only [attachNoLink, hc, create, hr]
      exact tl _ _
    rcases hk w.t with hk | hk
    · simp only [create, hk]; exact this 22 (Or.inl rfl)
    · simp only [create, hk]; exact this 524 (Or.inr rfl)

/-- **A mistake goes unnoticed:** asked to attach with another attach type than the program's own, Linux refuses, but AttachTracing then attaches the program by other means, with its own type. -/
theorem tracing_mismatch_attached :
    ∃ (k : Kern) (w : W) (prog : Obj) (own : Nat → Nat) (p : Nat), prog.fd = some p ∧ own p = 24 ∧ Consistent own k ∧ Fine w ∧
      ∃ w' l, attachTracing k w prog 25 0 = (w', .ok l) ∧ Created own w w' l p (.own 0) := by
  refine ⟨⟨fun _ r => if (meaning (fun _ => 24) r).isSome then none else some 22, fun _ => false, fun _ => none, fun _ => 2⟩, ⟨0, [], [], 9⟩, ⟨some 5, 26⟩, fun _ => 24, 5, rfl, rfl, ?_, ?_, ?_⟩
  · intro t r h
    simp only at h
    split at h
    · assumption
    · simp at h
  · intro x hx; simp at hx
  · exact ⟨_, _, rfl, [(.tracing 5 25 0, false)], .rawTp none 5, rfl, by simp, rfl, rfl, by simp⟩

/-! ### Raw tracepoints -/

/-- **C89.** AttachRawTracepoint attaches to the named tracepoint, on kernels with and without links. Partly: if it fails nothing stays attached,
unless it is the test for links that fails. -/
theorem rawTracepoint_exact_partial (hf : Fine w) (name : String) (prog : Obj) :
    (∀ w' l, attachRawTracepoint k w name prog = (w', .ok l) → (prog.typ = 17 ∨ prog.typ = 24) ∧ ∃ p, prog.fd = some p ∧ Created own w w' l p (.rawTracepoint name) ∧
      (l = .simpleRawTracepoint (fdOf l) ∨ l = .rawTracepoint (fdOf l))) ∧
    (∀ w' e, (∀ t, k.feature t = none ∨ k.feature t = some .notSupported) → attachRawTracepoint k w name prog = (w', .error e) → w'.fds = w.fds) := by
  unfold attachRawTracepoint
  split
  · exact ⟨fun w' l h => by simp at h, fun w' e _ h => by simp only [Prod.mk.injEq] at h; rw [← h.1]⟩
  · rename_i ht
    cases hp : prog.fd with
    | none => exact ⟨fun w' l h => by simp at h, fun w' e _ h => by simp only [Prod.mk.injEq] at h; rw [← h.1]⟩
    | some p =>
      simp only
      cases hc : create k w (.rawTp (some name) p) with
      | mk w1 r =>
        cases r with
        | error e => exact ⟨fun w' l h => by simp at h, fun w' e' _ h => by simp only [Prod.mk.injEq] at h; rw [← h.1]; exact (create_err _ _ _ _ _ hc).2.1⟩
        | ok fd =>
          obtain ⟨c1, c2, c3, c4, c5⟩ := create_ok _ _ _ _ _ hc
          simp only
          refine ⟨fun w' l h => ?_, fun w' e hfe h => ?_⟩
          · refine ⟨by omega, p, rfl, ?_⟩
            split at h
            · simp only [Prod.mk.injEq, Except.ok.injEq] at h
              rw [← h.1, ← h.2]
              exact ⟨created_of_log own w hf _ (.simpleRawTracepoint fd) p _ _ c2 rfl c1 c3, Or.inl rfl⟩
            · simp at h
            · simp only [Prod.mk.injEq, Except.ok.injEq] at h
              rw [← h.1, ← h.2]
              exact ⟨created_of_log own w hf _ (.rawTracepoint fd) p _ _ c2 rfl c1 c3, Or.inr rfl⟩
          · rcases hfe w1.t with hfe | hfe
            · simp [hfe] at h
            · simp [hfe] at h

/-- **C89 is false for AttachRawTracepoint:** if the test for links fails with an unexpected error, the error is returned with the descriptor open and the program attached
(until the garbage collector finds it). -/
theorem rawTracepoint_leaks :
    ∃ (k : Kern) (w : W) (prog : Obj) (w' : W) (e : E), Fine w ∧ attachRawTracepoint k w "sys_enter" prog = (w', .error e) ∧ w'.fds ≠ w.fds ∧ w'.log = [(.rawTp (some "sys_enter") 5, true)] :=
  ⟨⟨fun _ _ => none, fun _ => false, fun _ => some (.sys 1), fun _ => 0⟩, ⟨0, [], [], 9⟩, ⟨some 5, 17⟩, _, _, fun x hx => by simp at hx, rfl, by simp, rfl⟩

/-! ### Many functions at once -/

theorem fetch_some (n : Nat) (l : List Nat) (h : l.length = 0 ∨ l.length = n) : fetch n (if l.length ≠ 0 then some l else none) = some (if l.length = 0 then List.replicate n 0 else l) := by
  by_cases h0 : l.length = 0
  · simp [h0, fetch]
  · have hn : l.length = n := by omega
    subst hn
    rw [if_pos h0, if_neg h0]
    simp [fetch]

/-- **C89.** KprobeMulti and KretprobeMulti attach to exactly the given symbols or addresses, each with the cookie of the same index, or zero if there are no cookies. -/
theorem kprobeMulti_exact (hf : Fine w) (o : Obj) (p : Nat) (hp : o.fd = some p) (symbols : List String) (addresses cookies : List Nat) (session ret : Bool)
    (hs : symbols.length < 2 ^ 32) (ha : addresses.length < 2 ^ 32) (hc : cookies.length < 2 ^ 32) :
    (∀ w' l, kprobeMulti k w (some o) symbols addresses cookies session (if ret then 1 else 0) = (w', .ok l) → l = .kprobeMulti (fdOf l) ∧
      (symbols = [] ∨ addresses = []) ∧ (cookies = [] ∨ cookies.length = symbols.length + addresses.length) ∧
      Created own w w' l p (.kprobes ((symbols.map Point.sym ++ addresses.map Point.addr).zip (if cookies = [] then List.replicate (symbols.length + addresses.length) 0 else cookies)) ret session)) ∧
    (∀ w' e, kprobeMulti k w (some o) symbols addresses cookies session (if ret then 1 else 0) = (w', .error e) → w'.fds = w.fds) := by
  unfold kprobeMulti
  simp only [Nat.mod_eq_of_lt hs, Nat.mod_eq_of_lt ha, Nat.mod_eq_of_lt hc]
  split
  · exact ⟨fun w' l h => by simp at h, fun w' e h => by simp only [Prod.mk.injEq] at h; rw [← h.1]⟩
  · rename_i h1
    split
    · exact ⟨fun w' l h => by simp at h, fun w' e h => by simp only [Prod.mk.injEq] at h; rw [← h.1]⟩
    · rename_i h2
      split
      · exact ⟨fun w' l h => by simp at h, fun w' e h => by simp only [Prod.mk.injEq] at h; rw [← h.1]⟩
      · rename_i h3
        cases hcr : create k w (.kprobeMulti (ufd o.fd) (if session then 56 else 42) (if ret then 1 else 0) (if symbols.length ≠ 0 then symbols.length else addresses.length)
            (if symbols.length ≠ 0 then some symbols else none) (if symbols.length ≠ 0 then none else some addresses) (if cookies.length ≠ 0 then some cookies else none)) with
        | mk w1 r =>
          cases r with
          | error e =>
            have hw := (create_err _ _ _ _ _ hcr).2.1
            simp only [multiErr]
            refine ⟨fun w' l h => ?_, fun w' e' h => ?_⟩
            · split at h
              · simp at h
              · split at h <;> simp at h
            · split at h
              · simp only [Prod.mk.injEq] at h; rw [← h.1]; exact hw
              · split at h <;> (simp only [Prod.mk.injEq] at h; rw [← h.1]; exact hw)
          | ok fd =>
            obtain ⟨c1, c2, c3, c4, c5⟩ := create_ok _ _ _ _ _ hcr
            refine ⟨fun w' l h => ?_, fun w' e h => by simp at h⟩
            simp only [Prod.mk.injEq, Except.ok.injEq] at h
            rw [← h.1, ← h.2]
            have hck : cookies.length = 0 ∨ cookies.length = symbols.length + addresses.length := by omega
            have hck' : cookies = [] ∨ cookies.length = symbols.length + addresses.length := by
              rcases hck with hck | hck
              · exact Or.inl (List.length_eq_zero_iff.mp hck)
              · exact Or.inr hck
            have hzero : (if cookies.length = 0 then List.replicate (symbols.length + addresses.length) 0 else cookies) = (if cookies = [] then List.replicate (symbols.length + addresses.length) 0 else cookies) := by
              simp only [List.length_eq_zero_iff]
            have hret : (if ret = true then 1 else 0) < 2 ∧ ((if session = true then 56 else 42) = 42 ∨ (if session = true then 56 else 42) = 56) := by
              cases ret <;> cases session <;> simp
            have hb1 : ((if ret = true then 1 else 0) == 1) = ret := by cases ret <;> rfl
            have hb2 : ((if session = true then 56 else 42) == 56) = session := by cases session <;> rfl
            by_cases hsy : symbols.length = 0
            · have hse : symbols = [] := List.length_eq_zero_iff.mp hsy
              have hal : 0 < addresses.length := by omega
              refine ⟨rfl, Or.inl hse, hck', created_of_log own w hf _ (.kprobeMulti fd) p _ _ c2 ?_ c1 c3⟩
              have hfe := fetch_some addresses.length cookies (by omega)
              simp only [hsy, Nat.zero_add] at hzero ⊢
              simp only [ne_eq, not_true_eq_false, if_false, meaning]
              simp only [ne_eq] at hfe
              simp only [hfe, hp, ufd, hb1, hb2, hzero]
              rw [if_pos ⟨hal, Nat.le_refl _, hret⟩, List.take_length]
              simp [hse]
            · have hae : addresses = [] := List.length_eq_zero_iff.mp (by omega)
              refine ⟨rfl, Or.inr hae, hck', created_of_log own w hf _ (.kprobeMulti fd) p _ _ c2 ?_ c1 c3⟩
              have hfe := fetch_some symbols.length cookies (by rw [hae] at hck; simpa using hck)
              rw [hae] at hzero ⊢
              simp only [List.length_nil, Nat.add_zero] at hzero ⊢
              simp only [ne_eq, hsy, not_false_eq_true, if_true, meaning]
              simp only [ne_eq] at hfe
              simp only [hfe, hp, ufd, hb1, hb2, hzero]
              rw [if_pos ⟨by omega, Nat.le_refl _, hret⟩, List.take_length]
              simp

/-- **C89.** KprobeMulti succeeds if the kernel accepts, reports symbols that don't exist as ErrNotExist, and a kernel which can't do it as ErrNotSupported. -/
theorem kprobeMulti_result (o : Obj) (symbols : List String) (addresses cookies : List Nat) (session : Bool) (flags : Nat)
    (hs : symbols.length < 2 ^ 32) (ha : addresses.length < 2 ^ 32) (hc : cookies.length < 2 ^ 32)
    (h1 : (symbols = [] ∧ addresses ≠ []) ∨ (symbols ≠ [] ∧ addresses = [])) (h2 : cookies = [] ∨ cookies.length = symbols.length + addresses.length) :
    ((∀ t r, k.fail t r = none) → ∃ w' l, kprobeMulti k w (some o) symbols addresses cookies session flags = (w', .ok l)) ∧
    ((∀ t r, k.fail t r = some 3) → ∃ w', kprobeMulti k w (some o) symbols addresses cookies session flags = (w', .error .notExist)) ∧
    (∀ e, e ≠ 3 → (∀ t r, k.fail t r = some e) → (∀ t, k.feature t = some .notSupported) → ∃ w', kprobeMulti k w (some o) symbols addresses cookies session flags = (w', .error .notSupported)) ∧
    (∀ e, e ≠ 3 → (∀ t r, k.fail t r = some e) → (∀ t, k.feature t = none) → ∃ w', kprobeMulti k w (some o) symbols addresses cookies session flags = (w', .error (.sys e))) := by
  have hl : (symbols.length = 0 ∧ addresses.length ≠ 0) ∨ (symbols.length ≠ 0 ∧ addresses.length = 0) := by
    simp only [List.length_eq_zero_iff, ne_eq]; exact h1
  have hcl : cookies.length = 0 ∨ cookies.length = symbols.length + addresses.length := by
    rcases h2 with h2 | h2
    · exact Or.inl (by rw [h2]; rfl)
    · exact Or.inr h2
  unfold kprobeMulti
  simp only [Nat.mod_eq_of_lt hs, Nat.mod_eq_of_lt ha, Nat.mod_eq_of_lt hc]
  rw [if_neg (by omega), if_neg (by omega), if_neg (by omega)]
  refine ⟨fun hk => ?_, fun hk => ?_, fun e he hk hft => ?_, fun e he hk hft => ?_⟩
  · simp only [create, hk]; exact ⟨_, _, rfl⟩
  · simp only [create, hk, multiErr, if_true]; exact ⟨_, rfl⟩
  · simp only [create, hk, multiErr, if_neg he, hft]; exact ⟨_, rfl⟩
  · simp only [create, hk, multiErr, if_neg he, hft]; exact ⟨_, rfl⟩

theorem addressLoop_spec (addr : String → Nat → Nat → Except E Nat) (sy : Option (List String)) (ad off : Option (List Nat)) :
    ∀ (n i : Nat) (as : List Nat), addressLoop addr sy ad off i n = .ok as →
    as.length = n ∧ ∀ j, j < n → ∃ a, as[j]? = some a ∧ addr ((sy.getD []).getD (i + j) "") ((ad.getD []).getD (i + j) 0) ((off.getD []).getD (i + j) 0) = .ok a := by
  intro n
  induction n with
  | zero => intro i as h; simp [addressLoop] at h; subst h; simp
  | succ n ih =>
    intro i as h
    unfold addressLoop at h
    split at h
    · simp at h
    · rename_i a ha
      split at h
      · simp at h
      · rename_i r hr
        simp only [Except.ok.injEq] at h
        subst h
        obtain ⟨h1, h2⟩ := ih _ _ hr
        refine ⟨by simp [h1], fun j hj => ?_⟩
        cases j with
        | zero => exact ⟨a, rfl, ha⟩
        | succ j =>
          obtain ⟨b, hb, hb2⟩ := h2 j (by omega)
          refine ⟨b, by simpa using hb, ?_⟩
          have : i + (j + 1) = i + 1 + j := by omega
          rw [this]; exact hb2

/-- **C89.** UprobeMulti and UretprobeMulti attach to one place for each symbol or address, in order, each with the offset, reference counter and cookie of the same index.
Options that are given must have as many elements as there are places. -/
theorem uprobeMulti_exact (hf : Fine w) (path : String) (addr : String → Nat → Nat → Except E Nat) (symbols : Option (List String)) (o : Obj) (p : Nat) (hp : o.fd = some p)
    (addrs offsets : Option (List Nat)) (refCtrs cookies : List Nat) (pid : Nat) (ret : Bool)
    (hs : (symbols.getD []).length < 2 ^ 32) (ha : (addrs.getD []).length < 2 ^ 32) :
    (∀ w' l, uprobeMulti k w path addr symbols (some o) addrs offsets refCtrs cookies pid (if ret then 1 else 0) = (w', .ok l) → l = .uprobeMulti (fdOf l) ∧
      ∃ (places : List Nat) (n : Nat), 0 < n ∧ places.length = n ∧
        (∀ s, symbols = some s → s.length = n) ∧ (∀ s, addrs = some s → s.length = n) ∧ (∀ s, offsets = some s → s.length = n) ∧ (symbols = none → addrs ≠ none) ∧
        (refCtrs = [] ∨ refCtrs.length = n) ∧ (cookies = [] ∨ cookies.length = n) ∧
        (∀ i, i < n → ∃ a, places[i]? = some a ∧ addr ((symbols.getD []).getD i "") ((addrs.getD []).getD i 0) ((offsets.getD []).getD i 0) = .ok a) ∧
        Created own w w' l p (.uprobes path (places.zip ((if refCtrs = [] then List.replicate n 0 else refCtrs).zip (if cookies = [] then List.replicate n 0 else cookies))) ret pid)) ∧
    (∀ w' e, uprobeMulti k w path addr symbols (some o) addrs offsets refCtrs cookies pid (if ret then 1 else 0) = (w', .error e) → w'.fds = w.fds) := by
  unfold uprobeMulti
  simp only
  cases hadr : addresses addr symbols addrs offsets with
  | error e => exact ⟨fun w' l h => by simp at h, fun w' e h => by simp only [Prod.mk.injEq] at h; rw [← h.1]⟩
  | ok as =>
    simp only
    split
    · exact ⟨fun w' l h => by simp at h, fun w' e h => by simp only [Prod.mk.injEq] at h; rw [← h.1]⟩
    · rename_i h1
      split
      · exact ⟨fun w' l h => by simp at h, fun w' e h => by simp only [Prod.mk.injEq] at h; rw [← h.1]⟩
      · rename_i h2
        split
        · exact ⟨fun w' l h => by simp at h, fun w' e h => by simp only [Prod.mk.injEq] at h; rw [← h.1]⟩
        · rename_i h3
          have hspec : as.length < 2 ^ 32 ∧ (∀ s, symbols = some s → s.length = as.length) ∧ (∀ s, addrs = some s → s.length = as.length) ∧ (∀ s, offsets = some s → s.length = as.length) ∧
              (symbols = none → addrs ≠ none) ∧
              (∀ i, i < as.length → ∃ a, as[i]? = some a ∧ addr ((symbols.getD []).getD i "") ((addrs.getD []).getD i 0) ((offsets.getD []).getD i 0) = .ok a) := by
            unfold addresses at hadr
            simp only at hadr
            generalize hn : (if (symbols.getD []).length = 0 then (addrs.getD []).length else (symbols.getD []).length) = n at hadr
            have hlt : n < 2 ^ 32 := by rw [← hn]; split <;> assumption
            split at hadr
            · simp at hadr
            · rename_i g0
              split at hadr
              · simp at hadr
              · rename_i g1
                split at hadr
                · simp at hadr
                · rename_i g2
                  split at hadr
                  · simp at hadr
                  · rename_i g3
                    obtain ⟨k1, k2⟩ := addressLoop_spec addr symbols addrs offsets _ _ _ hadr
                    rw [← k1] at g0 g1 g2 g3 hn hlt
                    refine ⟨?_, ?_, ?_, ?_, ?_, ?_⟩
                    · exact hlt
                    · intro s hs; subst hs; simp at g1; exact g1
                    · intro s hs; subst hs; simp at g2; exact g2
                    · intro s hs; subst hs; simp at g3; exact g3
                    · intro hs ha'
                      subst hs ha'
                      simp at hn
                      omega
                    · intro i hi
                      obtain ⟨a, b1, b2⟩ := k2 i (by omega)
                      refine ⟨a, b1, ?_⟩
                      simpa using b2
          obtain ⟨s0, s1, s2, s3, s4, s5⟩ := hspec
          cases hcr : create k w (.uprobeMulti (ufd o.fd) 48 path (if ret then 1 else 0) (as.length % 2 ^ 32) as
            (if refCtrs.length ≠ 0 then some refCtrs else none) (if cookies.length ≠ 0 then some cookies else none) pid) with
          | mk w1 r =>
            cases r with
            | error e =>
              have hw := (create_err _ _ _ _ _ hcr).2.1
              simp only [uprobeErr]
              refine ⟨fun w' l h => ?_, fun w' e' h => ?_⟩
              · split at h
                · simp at h
                · split at h
                  · simp at h
                  · split at h <;> simp at h
              · split at h
                · simp only [Prod.mk.injEq] at h; rw [← h.1]; exact hw
                · split at h
                  · simp only [Prod.mk.injEq] at h; rw [← h.1]; exact hw
                  · split at h <;> (simp only [Prod.mk.injEq] at h; rw [← h.1]; exact hw)
            | ok fd =>
              obtain ⟨c1, c2, c3, c4, c5⟩ := create_ok _ _ _ _ _ hcr
              refine ⟨fun w' l h => ?_, fun w' e h => by simp at h⟩
              simp only [Prod.mk.injEq, Except.ok.injEq] at h
              rw [← h.1, ← h.2]
              have hr0 : refCtrs.length = 0 ∨ refCtrs.length = as.length := by omega
              have hc0 : cookies.length = 0 ∨ cookies.length = as.length := by omega
              have hr1 := fetch_some as.length refCtrs hr0
              have hc1 := fetch_some as.length cookies hc0
              refine ⟨rfl, as, as.length, by omega, rfl, s1, s2, s3, s4, ?_, ?_, s5, created_of_log own w hf _ (.uprobeMulti fd) p _ _ c2 ?_ c1 c3⟩
              · rcases hr0 with h | h
                · exact Or.inl (List.length_eq_zero_iff.mp h)
                · exact Or.inr h
              · rcases hc0 with h | h
                · exact Or.inl (List.length_eq_zero_iff.mp h)
                · exact Or.inr h
              · simp only [meaning, Nat.mod_eq_of_lt s0, hr1, hc1, hp, ufd, List.length_eq_zero_iff]
                rw [if_pos ⟨by omega, Nat.le_refl _, by cases ret <;> simp, trivial⟩, List.take_length]
                cases ret <;> rfl

/-- **C89 is false for UprobeMulti on kernels without it:** they answer EINVAL, which is returned without asking whether the feature exists, so that errors.Is(err, ErrNotSupported) does not hold.
For any other error it does. -/
theorem uprobeMulti_unsupported_partial (path : String) (addr : String → Nat → Nat → Except E Nat) (symbols : Option (List String)) (o : Obj) (addrs offsets : Option (List Nat)) (refCtrs cookies : List Nat) (pid flags : Nat)
    (as : List Nat) (hadr : addresses addr symbols addrs offsets = .ok as) (h0 : as ≠ []) (h1 : refCtrs = [] ∨ refCtrs.length = as.length) (h2 : cookies = [] ∨ cookies.length = as.length) (hft : ∀ t, k.feature t = some .notSupported) :
    ((∀ t r, k.fail t r = none) → ∃ w' l, uprobeMulti k w path addr symbols (some o) addrs offsets refCtrs cookies pid flags = (w', .ok l)) ∧
    (∀ e, e ≠ 3 → e ≠ 22 → (∀ t r, k.fail t r = some e) → ∃ w', uprobeMulti k w path addr symbols (some o) addrs offsets refCtrs cookies pid flags = (w', .error .notSupported)) ∧
    ((∀ t r, k.fail t r = some 22) → ∃ w', uprobeMulti k w path addr symbols (some o) addrs offsets refCtrs cookies pid flags = (w', .error (.sys 22))) ∧
    ((∀ t r, k.fail t r = some 3) → ∃ w', uprobeMulti k w path addr symbols (some o) addrs offsets refCtrs cookies pid flags = (w', .error .notExist)) := by
  have h1' : refCtrs.length = 0 ∨ refCtrs.length = as.length := by
    rcases h1 with h1 | h1
    · exact Or.inl (by rw [h1]; rfl)
    · exact Or.inr h1
  have h2' : cookies.length = 0 ∨ cookies.length = as.length := by
    rcases h2 with h2 | h2
    · exact Or.inl (by rw [h2]; rfl)
    · exact Or.inr h2
  have h0' : as.length ≠ 0 := by simpa [List.length_eq_zero_iff] using h0
  unfold uprobeMulti
  simp only [hadr]
  rw [if_neg h0', if_neg (by omega), if_neg (by omega)]
  refine ⟨fun hk => ?_, fun e he he' hk => ?_, fun hk => ?_, fun hk => ?_⟩
  · simp only [create, hk]; exact ⟨_, _, rfl⟩
  · simp only [create, hk, uprobeErr, if_neg he, if_neg he', hft]; exact ⟨_, rfl⟩
  · simp only [create, hk, uprobeErr]; exact ⟨_, rfl⟩
  · simp only [create, hk, uprobeErr, if_true]; exact ⟨_, rfl⟩

/-! ### Others -/

/-- **C89.** AttachNetfilter. -/
theorem netfilter_exact (hf : Fine w) (prog : Option Obj) (pf hook : Nat) (priority : Int) (flags nfFlags : Nat) :
    (∀ w' l, attachNetfilter k w prog pf hook priority flags nfFlags = (w', .ok l) → ∃ o p, prog = some o ∧ o.typ = 32 ∧ o.fd = some p ∧ l = .netfilter (fdOf l) ∧
      Created own w w' l p (.netfilter pf hook priority flags nfFlags)) ∧
    (∀ w' e, attachNetfilter k w prog pf hook priority flags nfFlags = (w', .error e) → w'.fds = w.fds) := by
  unfold attachNetfilter
  cases prog with
  | none => exact ⟨fun w' l h => by simp at h, fun w' e h => by simp only [Prod.mk.injEq] at h; rw [← h.1]⟩
  | some o =>
    simp only
    split
    · exact ⟨fun w' l h => by simp at h, fun w' e h => by simp only [Prod.mk.injEq] at h; rw [← h.1]⟩
    · rename_i ht
      cases hp : o.fd with
      | none => exact ⟨fun w' l h => by simp at h, fun w' e h => by simp only [Prod.mk.injEq] at h; rw [← h.1]⟩
      | some p =>
        simp only
        cases hc : create k w (.netfilter p 45 flags pf hook priority nfFlags) with
        | mk w1 r =>
          cases r with
          | error e => exact ⟨fun w' l h => by simp at h, fun w' e' h => by simp only [Prod.mk.injEq] at h; rw [← h.1]; exact (create_err _ _ _ _ _ hc).2.1⟩
          | ok fd =>
            obtain ⟨c1, c2, c3, c4, c5⟩ := create_ok _ _ _ _ _ hc
            refine ⟨fun w' l h => ?_, fun w' e h => by simp at h⟩
            simp only [Prod.mk.injEq, Except.ok.injEq] at h
            rw [← h.1, ← h.2]
            exact ⟨o, p, rfl, by omega, hp, rfl, created_of_log own w hf _ (.netfilter fd) p _ _ c2 rfl c1 c3⟩

theorem iterCreate_spec (hf : Fine w) (p m : Nat) :
    (∀ w' l, iterCreate k w p m = (w', .ok l) → l = .iter (fdOf l) ∧ Created own w w' l p (.iter (if m = 0 then none else some m))) ∧
    (∀ w' e, iterCreate k w p m = (w', .error e) → w'.fds = w.fds) := by
  unfold iterCreate
  cases hc : create k w (.iter p 28 m) with
  | mk w1 r =>
    cases r with
    | error e =>
      have hw := (create_err _ _ _ _ _ hc).2.1
      simp only
      refine ⟨fun w' l h => ?_, fun w' e' h => ?_⟩
      · split at h <;> simp at h
      · split at h <;> (simp only [Prod.mk.injEq] at h; rw [← h.1]; exact hw)
    | ok fd =>
      obtain ⟨c1, c2, c3, c4, c5⟩ := create_ok _ _ _ _ _ hc
      refine ⟨fun w' l h => ?_, fun w' e h => by simp at h⟩
      simp only [Prod.mk.injEq, Except.ok.injEq] at h
      rw [← h.1, ← h.2]
      exact ⟨rfl, created_of_log own w hf _ (.iter fd) p _ _ c2 rfl c1 c3⟩

/-- **C89.** AttachIter: the iterator is for the given map, if there is one (descriptors of maps are never 0). -/
theorem iter_exact (hf : Fine w) (prog : Obj) (map : Option Obj) (hm : ∀ m, map = some m → m.fd ≠ some 0) :
    (∀ w' l, attachIter k w prog map = (w', .ok l) → ∃ p, prog.fd = some p ∧ l = .iter (fdOf l) ∧
      ((map = none ∧ Created own w w' l p (.iter none)) ∨ ∃ m f, map = some m ∧ m.fd = some f ∧ Created own w w' l p (.iter (some f)))) ∧
    (∀ w' e, attachIter k w prog map = (w', .error e) → w'.fds = w.fds) := by
  unfold attachIter
  cases hp : prog.fd with
  | none => exact ⟨fun w' l h => by simp at h, fun w' e h => by simp only [Prod.mk.injEq] at h; rw [← h.1]⟩
  | some p =>
    cases map with
    | none =>
      obtain ⟨i1, i2⟩ := iterCreate_spec k own w hf p 0
      exact ⟨fun w' l h => ⟨p, rfl, (i1 w' l h).1, Or.inl ⟨rfl, (i1 w' l h).2⟩⟩, i2⟩
    | some m =>
      simp only
      cases hmf : m.fd with
      | none => exact ⟨fun w' l h => by simp at h, fun w' e h => by simp only [Prod.mk.injEq] at h; rw [← h.1]⟩
      | some f =>
        obtain ⟨i1, i2⟩ := iterCreate_spec k own w hf p f
        refine ⟨fun w' l h => ⟨p, rfl, (i1 w' l h).1, Or.inr ⟨m, f, rfl, hmf, ?_⟩⟩, i2⟩
        have hne : f ≠ 0 := fun e => hm m rfl (by rw [hmf, e])
        have := (i1 w' l h).2
        rw [if_neg hne] at this
        exact this

/-- **C89.** AttachStructOps attaches the map. -/
theorem structOps_exact (hf : Fine w) (map : Option Obj) :
    (∀ w' l, attachStructOps k w map = (w', .ok l) → ∃ m f, map = some m ∧ m.typ = 26 ∧ m.fd = some f ∧ l = .structOps (fdOf l) ∧ Created own w w' l f (.target 0 44 0 0)) ∧
    (∀ w' e, attachStructOps k w map = (w', .error e) → w'.fds = w.fds) := by
  unfold attachStructOps
  cases map with
  | none => exact ⟨fun w' l h => by simp at h, fun w' e h => by simp only [Prod.mk.injEq] at h; rw [← h.1]⟩
  | some m =>
    simp only
    split
    · exact ⟨fun w' l h => by simp at h, fun w' e h => by simp only [Prod.mk.injEq] at h; rw [← h.1]⟩
    · rename_i ht
      cases hp : m.fd with
      | none => exact ⟨fun w' l h => by simp at h, fun w' e h => by simp only [Prod.mk.injEq] at h; rw [← h.1]⟩
      | some p =>
        simp only
        cases hc : create k w (.link p 0 44 0 0) with
        | mk w1 r =>
          cases r with
          | error e => exact ⟨fun w' l h => by simp at h, fun w' e' h => by simp only [Prod.mk.injEq] at h; rw [← h.1]; exact (create_err _ _ _ _ _ hc).2.1⟩
          | ok fd =>
            obtain ⟨c1, c2, c3, c4, c5⟩ := create_ok _ _ _ _ _ hc
            refine ⟨fun w' l h => ?_, fun w' e h => by simp at h⟩
            simp only [Prod.mk.injEq, Except.ok.injEq] at h
            rw [← h.1, ← h.2]
            exact ⟨m, p, rfl, by omega, hp, rfl, created_of_log own w hf _ (.structOps fd) p _ _ c2 rfl c1 c3⟩

/-- **C89.** A kernel without links, without a way of attaching to the target, or without cookies is reported as ErrNotSupported, by all functions which have no other way. -/
theorem unsupported_reported (o : Obj) (p : Nat) (hp : o.fd = some p) :
    ((∀ t, k.feature t = some .notSupported) →
      (∀ target attach btf flags, ∃ w', attachRawLink k w target o attach btf flags = (w', .error .notSupported)) ∧
      (o.typ = 6 → ∀ (iface : Int) flags, 1 ≤ iface → ∃ w', attachXDP k w o iface flags = (w', .error .notSupported)) ∧
      (o.typ = 22 ∨ o.typ = 30 → ∀ ns, ∃ w', attachNetNs k w ns o = (w', .error .notSupported)) ∧
      (o.typ = 28 → ∃ w', attachFreplace k w none "" (some o) = (w', .error .notSupported)) ∧
      (∀ e, (∀ t r, k.fail t r = some e) → ∃ w', attachIter k w o none = (w', .error .notSupported))) ∧
    ((∀ t, k.feature t = none) → (∀ t r, k.fail t r = some 524) →
      (o.typ = 28 → ∃ w', attachFreplace k w none "" (some o) = (w', .error .notSupported)) ∧
      (o.typ = 28 → ∀ (tgt : Obj) (f id : Nat) (name : String), tgt.fd = some f → name ≠ "" → ∃ w', attachFreplace k w (some (tgt, .ok id)) name (some o) = (w', .error .notSupported)) ∧
      (o.typ = 26 → ∀ at_ ∈ [23, 24, 25, 26], ∀ cookie, ∃ w', attachTracing k w o at_ cookie = (w', .error .notSupported)) ∧
      (o.typ = 29 → ∀ cookie, ∃ w', attachLSM k w o cookie = (w', .error .notSupported))) ∧
    ((∀ t p' a c, k.fail t (.tracing p' a c) = some 22) → ∀ cookie, 0 < cookie →
      (o.typ = 26 → ∀ at_ ∈ [23, 24, 25, 26], ∃ w', attachTracing k w o at_ cookie = (w', .error .notSupported)) ∧
      (o.typ = 29 → ∃ w', attachLSM k w o cookie = (w', .error .notSupported))) := by
  refine ⟨fun hft => ⟨?_, ?_, ?_, ?_, ?_⟩, fun hft hk => ⟨?_, ?_, ?_, ?_⟩, fun hk cookie hc => ⟨?_, ?_⟩⟩
  · intro target attach btf flags
    simp only [attachRawLink, hft]; exact ⟨_, rfl⟩
  · intro ht iface flags hi
    unfold attachXDP
    rw [if_neg (by omega), if_neg (by omega)]
    simp only [attachRawLink, hft]; exact ⟨_, rfl⟩
  · intro ht ns
    unfold attachNetNs
    rcases ht with ht | ht <;> (simp only [ht, attachRawLink, hft]; exact ⟨_, rfl⟩)
  · intro ht
    simp [attachFreplace, ht, attachRawLink, hft, freplaceResult]
  · intro e hk
    simp only [attachIter, hp, iterCreate, create, hk, hft]; exact ⟨_, rfl⟩
  · intro ht
    simp [attachFreplace, ht, attachRawLink, hft, freplaceResult, hp, create, hk]
  · intro ht tgt f id name htf hn
    simp [attachFreplace, ht, attachRawLink, hft, freplaceResult, hp, create, hk, htf, hn]
  · intro ht at_ ha cookie
    have h1 : ([24, 25, 26, 23, 0] : List Nat).contains at_ = true := by simp at ha ⊢; omega
    have h2 : ([24, 25, 23, 26, 27] : List Nat).contains at_ = true := by simp at ha ⊢; omega
    simp only [attachTracing, ht, attachBTFID, hp, h1, h2, create, hk, attachNoLink, ne_eq, not_true_eq_false, if_false, Bool.not_true, Bool.false_eq_true, if_true, and_false]
    split <;> exact ⟨_, rfl⟩
  · intro ht cookie
    simp only [attachLSM, ht, attachBTFID, hp, create, hk, attachNoLink, ne_eq, not_true_eq_false, if_false, and_false]
    simp only [List.contains, List.elem, Nat.reduceBEq, if_true]
    split <;> exact ⟨_, rfl⟩
  · intro ht at_ ha
    have h1 : ([24, 25, 26, 23, 0] : List Nat).contains at_ = true := by simp at ha ⊢; omega
    have h2 : ([24, 25, 23, 26, 27] : List Nat).contains at_ = true := by simp at ha ⊢; omega
    simp only [attachTracing, ht, attachBTFID, hp, h1, h2, create, hk, attachNoLink, ne_eq, not_true_eq_false, if_false, Bool.not_true, Bool.false_eq_true, if_true, false_and, gt_iff_lt, hc]
    exact ⟨_, rfl⟩
  · intro ht
    simp only [attachLSM, ht, attachBTFID, hp, create, hk, attachNoLink, ne_eq, not_true_eq_false, if_false, false_and, gt_iff_lt, hc, if_true]
    simp only [List.contains, List.elem, Nat.reduceBEq, if_true]
    exact ⟨_, rfl⟩

/-- **C89.** If the kernel has links and accepts what it is asked, the other functions succeed too. -/
theorem others_succeed (hk : ∀ t r, k.fail t r = none) (hft : ∀ t, k.feature t = none) (o : Obj) (p : Nat) (hp : o.fd = some p) :
    (∀ target attach btf flags, ∃ w' l, attachRawLink k w (some target) o attach btf flags = (w', .ok l)) ∧
    (o.typ = 6 → ∀ (iface : Int) flags, 1 ≤ iface → ∃ w' l, attachXDP k w o iface flags = (w', .ok l)) ∧
    (o.typ = 22 ∨ o.typ = 30 → ∀ ns, ∃ w' l, attachNetNs k w (some ns) o = (w', .ok l)) ∧
    (o.typ = 28 → ∃ w' l, attachFreplace k w none "" (some o) = (w', .ok l)) ∧
    (o.typ = 28 → ∀ (tgt : Obj) (f id : Nat) (name : String), tgt.fd = some f → name ≠ "" → ∃ w' l, attachFreplace k w (some (tgt, .ok id)) name (some o) = (w', .ok l)) ∧
    (o.typ = 29 → ∀ cookie, (∀ t, k.infoFails t = false) → ∃ w' l, attachLSM k w o cookie = (w', .ok l)) ∧
    (o.typ = 32 → ∀ pf hook priority flags nfFlags, ∃ w' l, attachNetfilter k w (some o) pf hook priority flags nfFlags = (w', .ok l)) ∧
    (∃ w' l, attachIter k w o none = (w', .ok l)) ∧ (∀ m f, m.fd = some f → ∃ w' l, attachIter k w o (some m) = (w', .ok l)) ∧
    (o.typ = 26 → ∃ w' l, attachStructOps k w (some o) = (w', .ok l)) := by
  refine ⟨?_, ?_, ?_, ?_, ?_, ?_, ?_, ?_, ?_, ?_⟩
  · intro target attach btf flags
    simp only [attachRawLink, hft, hp, create, hk]; exact ⟨_, _, rfl⟩
  · intro ht iface flags hi
    unfold attachXDP
    rw [if_neg (by omega), if_neg (by omega)]
    simp only [attachRawLink, hft, hp, create, hk]; exact ⟨_, _, rfl⟩
  · intro ht ns
    unfold attachNetNs
    rcases ht with ht | ht <;> (simp only [ht, attachRawLink, hft, hp, create, hk]; exact ⟨_, _, rfl⟩)
  · intro ht
    simp [attachFreplace, ht, attachRawLink, hft, freplaceResult, hp, create, hk]
  · intro ht tgt f id name htf hn
    simp [attachFreplace, ht, attachRawLink, hft, freplaceResult, hp, create, hk, htf, hn]
  · intro ht cookie hi
    simp only [attachLSM, ht, attachBTFID, hp, create, hk, ne_eq, not_true_eq_false, if_false, tracingLink, hi, Bool.false_eq_true]
    simp only [List.contains, List.elem, Nat.reduceBEq, if_true]
    split <;> exact ⟨_, _, rfl⟩
  · intro ht pf hook priority flags nfFlags
    simp [attachNetfilter, ht, hp, create, hk]
  · simp [attachIter, hp, iterCreate, create, hk]
  · intro m f hm
    simp [attachIter, hp, hm, iterCreate, create, hk]
  · intro ht
    simp [attachStructOps, ht, hp, create, hk]

end

/-- Witness: two functions with cookies. -/
example : (kprobeMulti ⟨fun _ _ => none, fun _ => false, fun _ => none, fun _ => 8⟩ ⟨0, [], [1], 9⟩ (some ⟨some 5, 2⟩) ["a", "b"] [] [7, 8] false 1).2 = .ok (.kprobeMulti 9) := rfl

end Ebpf.AttachLinks
