import Verif.Spec.MapCreate
import Verif.Props.MapSpec
/-!
# C82: creating and reusing maps
-/
namespace Ebpf.MapCreate
open Ebpf.MapSpec Ebpf.MapCreateSpec Ebpf.MapSpec.Spec

theorem upd_same {α : Type} (f : Nat → α) (i : Nat) (a : α) : upd f i a i = a := by simp [upd]

theorem upd_other {α : Type} (f : Nat → α) {i j : Nat} (a : α) (h : j ≠ i) : upd f i a j = f j := by simp [upd, h]

theorem upd_back {α : Type} (f : Nat → α) (i : Nat) (a b : α) (h : f i = b) : upd (upd f i a) i b = f := by
  funext j
  by_cases hj : j = i
  · rw [hj, upd_same, h]
  · rw [upd_other _ _ hj, upd_other _ _ hj]

theorem upd_comm {α : Type} (f : Nat → α) {i j : Nat} (a b : α) (h : i ≠ j) : upd (upd f i a) j b = upd (upd f j b) i a := by
  funext k
  by_cases hi : k = i
  · rw [hi, upd_other _ _ h, upd_same, upd_same]
  · by_cases hj : k = j
    · rw [hj, upd_same, upd_other _ _ (fun x => h x.symm), upd_same]
    · rw [upd_other _ _ hj, upd_other _ _ hi, upd_other _ _ hi, upd_other _ _ hj]

/-- What every step keeps: objects stay as they are, nothing is closed twice. -/
structure Frame (s s' : St) : Prop where
  fd : s.nextFd ≤ s'.nextFd
  obj : s.nextObj ≤ s'.nextObj
  objs : ∀ i, i < s.nextObj → s'.objs i = s.objs i
  bad : s'.bad = s.bad
  sane : Sane s'

theorem Frame.refl {s : St} (h : Sane s) : Frame s s := ⟨Nat.le_refl _, Nat.le_refl _, fun _ _ => rfl, rfl, h⟩

theorem Frame.trans {a b c : St} (h : Frame a b) (h' : Frame b c) : Frame a c :=
  ⟨Nat.le_trans h.fd h'.fd, Nat.le_trans h.obj h'.obj, fun i hi => by rw [h'.objs i (Nat.lt_of_lt_of_le hi h.obj), h.objs i hi], by rw [h'.bad, h.bad], h'.sane⟩

theorem create_frame {s : St} (h : Sane s) (o : Obj) : Frame s (s.create o) where
  fd := Nat.le_succ _
  obj := Nat.le_succ _
  objs := fun i hi => upd_other _ _ (by omega)
  bad := rfl
  sane := by
    refine ⟨fun n hn => ?_, fun n hn => ?_, fun n o' ho => ?_, fun p o' ho => ?_⟩
    · have hn' : s.nextFd + 1 ≤ n := hn
      show upd s.fds s.nextFd _ n = none
      rw [upd_other _ _ (by omega)]; exact h.fds n (by omega)
    · have hn' : s.nextObj + 1 ≤ n := hn
      show upd s.objs s.nextObj _ n = none
      rw [upd_other _ _ (by omega)]; exact h.objs n (by omega)
    · have ho' : upd s.fds s.nextFd (some s.nextObj) n = some o' := ho
      show o' < s.nextObj + 1
      by_cases hn : n = s.nextFd
      · rw [hn, upd_same] at ho'; cases ho'; omega
      · rw [upd_other _ _ hn] at ho'; have := h.open_ n o' ho'; omega
    · show o' < s.nextObj + 1
      have := h.files p o' ho; omega

theorem close_frame {s : St} (h : Sane s) (fd o : Nat) (ho : s.fds fd = some o) : Frame s (s.close fd) where
  fd := Nat.le_refl _
  obj := Nat.le_refl _
  objs := fun _ _ => rfl
  bad := by show (s.bad || (s.fds fd).isNone) = s.bad; rw [ho]; simp
  sane := by
    refine ⟨fun n hn => ?_, h.objs, fun n o' ho' => ?_, h.files⟩
    · show upd s.fds fd none n = none
      by_cases hf : n = fd
      · rw [hf, upd_same]
      · rw [upd_other _ _ hf]; exact h.fds n hn
    · have ho2 : upd s.fds fd none n = some o' := ho'
      by_cases hf : n = fd
      · rw [hf, upd_same] at ho2; cases ho2
      · rw [upd_other _ _ hf] at ho2; exact h.open_ n o' ho2

theorem sane_lt {s : St} (h : Sane s) {fd o : Nat} (ho : s.fds fd = some o) : fd < s.nextFd := by
  apply Decidable.byContradiction
  intro hn
  rw [h.fds fd (by omega)] at ho
  cases ho

/-- Descriptors after closing the BTF handle. -/
def closedFds (fds : Nat → Option Nat) (h : Option Nat) : Nat → Option Nat :=
  match h with
  | none => fds
  | some fd => upd fds fd none

theorem closeHandle_frame {s : St} (hs : Sane s) (h : Option Nat) (ho : ∀ fd, h = some fd → ∃ o, s.fds fd = some o) :
    Frame s (s.closeHandle h) ∧ (s.closeHandle h).files = s.files ∧ (s.closeHandle h).fds = closedFds s.fds h ∧ (s.closeHandle h).objs = s.objs := by
  cases h with
  | none => exact ⟨Frame.refl hs, rfl, rfl, rfl⟩
  | some fd =>
    obtain ⟨o, hfd⟩ := ho fd rfl
    exact ⟨close_frame hs fd o hfd, rfl, rfl, rfl⟩

/-- What creating a map does. -/
structure Made (s s' : St) (m : Handle) (o : Nat) (a : MSpec) (inner : Option Nat) : Prop where
  opened : Opened s s' m.fd o
  new : s.nextObj ≤ o
  path : m.path = none
  attr : m.attr = a
  obj : ∃ b, s'.objs o = some ⟨true, a, b, inner, [], false⟩

theorem opened_fds {s s' : St} {fd o : Nat} (h : Opened s s' fd o) : s'.fds = upd s.fds fd (some o) := by
  funext n
  by_cases hn : n = fd
  · rw [hn, upd_same]; exact h.2.1
  · rw [upd_other _ _ hn]; exact h.2.2 n hn

theorem parts_eq {cpus : Option (BitVec 32)} {fd : Nat} {a : MSpec} {m : Handle} (h : newMapFromParts cpus fd a = some m) : m = ⟨fd, a, none⟩ := by
  unfold newMapFromParts at h
  split at h
  · cases h
  · exact (Option.some.inj h).symm

theorem createWith_spec (cpus : Option (BitVec 32)) (e : CreateEnv) (ms : MSpec) (inner : Option Nat) (h : Option Nat) (s : St) (hs : Sane s)
    (ho : ∀ fd, h = some fd → ∃ o, s.fds fd = some o) :
    Frame s (createWith cpus e ms inner h s).1 ∧ (createWith cpus e ms inner h s).1.files = s.files ∧
    (∀ err, (createWith cpus e ms inner h s).2 = .error err → (createWith cpus e ms inner h s).1.fds = closedFds s.fds h) ∧
    (∀ m, (createWith cpus e ms inner h s).2 = .ok m → m = ⟨s.nextFd, ms, none⟩ ∧ (createWith cpus e ms inner h s).1.fds = upd (closedFds s.fds h) s.nextFd (some s.nextObj) ∧
      ∃ b, (createWith cpus e ms inner h s).1.objs s.nextObj = some ⟨true, ms, b, inner.bind s.fds, [], false⟩) := by
  unfold createWith
  have hne : ∀ fd, h = some fd → fd ≠ s.nextFd := by
    intro fd hfd
    obtain ⟨o, hx⟩ := ho fd hfd
    have := sane_lt hs hx; omega
  split
  · obtain ⟨h1, h2, h3, _⟩ := closeHandle_frame hs h ho
    exact ⟨h1, h2, fun _ _ => h3, fun m hm => by cases hm⟩
  · rename_i withBtf _
    simp only
    have hc := create_frame hs ⟨true, ms, withBtf, inner.bind s.fds, [], false⟩
    have ho' : ∀ fd, h = some fd → ∃ o, (s.create ⟨true, ms, withBtf, inner.bind s.fds, [], false⟩).fds fd = some o := by
      intro fd hfd
      obtain ⟨o, hx⟩ := ho fd hfd
      exact ⟨o, by show upd s.fds s.nextFd _ fd = _; rw [upd_other _ _ (hne fd hfd)]; exact hx⟩
    split
    · have hopen : (s.create ⟨true, ms, withBtf, inner.bind s.fds, [], false⟩).fds s.nextFd = some s.nextObj := upd_same _ _ _
      have hcl := close_frame hc.sane s.nextFd s.nextObj hopen
      have hfds : ((s.create ⟨true, ms, withBtf, inner.bind s.fds, [], false⟩).close s.nextFd).fds = s.fds := upd_back s.fds s.nextFd _ none (hs.fds _ (Nat.le_refl _))
      obtain ⟨h1, h2, h3, _⟩ := closeHandle_frame hcl.sane h (fun fd hfd => by rw [hfds]; exact ho fd hfd)
      exact ⟨(hc.trans hcl).trans h1, (by rw [h2]; rfl), (fun _ _ => by rw [h3, hfds]), (fun m hm => by cases hm)⟩
    · rename_i m hm
      obtain ⟨h1, h2, h3, h4⟩ := closeHandle_frame hc.sane h ho'
      refine ⟨hc.trans h1, (by rw [h2]; rfl), (fun _ hx => by cases hx), fun m' hm' => ?_⟩
      cases hm'
      refine ⟨parts_eq hm, ?_, withBtf, ?_⟩
      · rw [h3]
        unfold closedFds
        cases h with
        | none => rfl
        | some fd => exact upd_comm _ _ _ (fun x => hne fd rfl x.symm)
      · rw [h4]; exact upd_same _ _ _

/-- createMap: all or nothing. -/
theorem createMap_spec (cpus : Option (BitVec 32)) (e : CreateEnv) (sp : One) (inner : Option Nat) (s : St) (hs : Sane s) (hi : ∀ t, inner = some t → t < s.nextFd) :
    Frame s (createMap cpus e sp inner s).1 ∧ (createMap cpus e sp inner s).1.files = s.files ∧
    (∀ err, (createMap cpus e sp inner s).2 = .error err → (createMap cpus e sp inner s).1.fds = s.fds) ∧
    (∀ m, (createMap cpus e sp inner s).2 = .ok m → ∃ o a, (fixup cpus sp.m).1 = some a ∧ Made s (createMap cpus e sp inner s).1 m o a (inner.bind s.fds)) := by
  unfold createMap
  split
  · exact ⟨Frame.refl hs, rfl, fun _ _ => rfl, fun m hm => by cases hm⟩
  · split
    · exact ⟨Frame.refl hs, rfl, fun _ _ => rfl, fun m hm => by cases hm⟩
    · rename_i ms hms
      have plain : ∀ r, r = createWith cpus e ms inner none s → Frame s r.1 ∧ r.1.files = s.files ∧ (∀ err, r.2 = .error err → r.1.fds = s.fds) ∧
          (∀ m, r.2 = .ok m → ∃ o a, (fixup cpus sp.m).1 = some a ∧ Made s r.1 m o a (inner.bind s.fds)) := by
        rintro r rfl
        obtain ⟨h1, h2, h3, h4⟩ := createWith_spec cpus e ms inner none s hs (fun fd h => by cases h)
        refine ⟨h1, h2, h3, fun m hm => ?_⟩
        obtain ⟨g1, g2, g3⟩ := h4 m hm
        refine ⟨s.nextObj, ms, hms, ⟨?_, (by rw [g2, g1]; exact upd_same _ _ _), fun n hn => ?_⟩, Nat.le_refl _, (by rw [g1]), (by rw [g1]), g3⟩
        · rw [g1]; exact hs.fds _ (Nat.le_refl _)
        · rw [g2]; rw [g1] at hn; exact upd_other _ _ hn
      split
      · exact plain _ rfl
      · split
        · exact ⟨Frame.refl hs, rfl, fun _ _ => rfl, fun m hm => by cases hm⟩
        · exact plain _ rfl
        · have hc := create_frame hs ⟨false, ⟨0, 0, 0, 0, 0⟩, false, none, [], false⟩
          have hopen : (s.create ⟨false, ⟨0, 0, 0, 0, 0⟩, false, none, [], false⟩).fds s.nextFd = some s.nextObj := upd_same _ _ _
          obtain ⟨h1, h2, h3, h4⟩ := createWith_spec cpus e ms inner (some s.nextFd) _ hc.sane (fun fd h => by cases h; exact ⟨_, hopen⟩)
          have hback : closedFds (s.create ⟨false, ⟨0, 0, 0, 0, 0⟩, false, none, [], false⟩).fds (some s.nextFd) = s.fds := upd_back s.fds s.nextFd _ none (hs.fds _ (Nat.le_refl _))
          have hib : inner.bind (s.create ⟨false, ⟨0, 0, 0, 0, 0⟩, false, none, [], false⟩).fds = inner.bind s.fds := by
            cases inner with
            | none => rfl
            | some t => exact upd_other _ _ (Nat.ne_of_lt (hi t rfl))
          refine ⟨hc.trans h1, (by rw [h2]; rfl), (fun err herr => by rw [h3 err herr, hback]), fun m hm => ?_⟩
          obtain ⟨g1, g2, b, g3⟩ := h4 m hm
          rw [hback] at g2
          rw [hib] at g3
          refine ⟨s.nextObj + 1, ms, hms, ⟨?_, (by rw [g2, g1]; exact upd_same _ _ _), fun n hn => ?_⟩, Nat.le_succ _, (by rw [g1]), (by rw [g1]), b, g3⟩
          · rw [g1]; exact hs.fds _ (Nat.le_succ _)
          · rw [g2]; rw [g1] at hn; exact upd_other _ _ hn

/-- What making a map that may be pinned does, if it works. -/
structure Created (pinning : Pinning) (path : Nat) (s s' : St) (m : Handle) (o : Nat) (a : MSpec) (inner : Option Nat) : Prop where
  opened : Opened s s' m.fd o
  new : s.nextObj ≤ o
  attr : m.attr = a
  obj : ∃ b, s'.objs o = some ⟨true, a, b, inner, [], false⟩
  pinned : pinning = .byName → m.path = some path ∧ s.files path = none ∧ s'.files = upd s.files path (some o)
  plain : pinning ≠ .byName → m.path = none ∧ s'.files = s.files

theorem opened_lt {s s' : St} {fd o : Nat} (hs : Sane s') (h : Opened s s' fd o) : o < s'.nextObj := hs.open_ fd o h.2.1

theorem createOuter_spec (env : Env) (sp : Spec) (path : Nat) (inner : Option Nat) (s : St) (hs : Sane s) (hi : ∀ t, inner = some t → t < s.nextFd) :
    Frame s (createOuter env sp path inner s).1 ∧
    (∀ err, (createOuter env sp path inner s).2 = .error err → (createOuter env sp path inner s).1.fds = s.fds ∧ (createOuter env sp path inner s).1.files = s.files) ∧
    (∀ m, (createOuter env sp path inner s).2 = .ok m → ∃ o a, (fixup env.cpus sp.one.m).1 = some a ∧
      Created sp.pinning path s (createOuter env sp path inner s).1 m o a (inner.bind s.fds)) := by
  obtain ⟨h1, h2, h3, h4⟩ := createMap_spec env.cpus env.outer sp.one inner s hs hi
  unfold createOuter
  obtain ⟨r, hr⟩ : ∃ r, r = createMap env.cpus env.outer sp.one inner s := ⟨_, rfl⟩
  rw [← hr] at h1 h2 h3 h4 ⊢
  obtain ⟨s1, res⟩ := r
  cases res with
  | error e => exact ⟨h1, fun err _ => ⟨h3 e rfl, h2⟩, (fun m hm => by cases hm)⟩
  | ok m =>
    obtain ⟨o, a, ha, hm⟩ := h4 m rfl
    simp only at h1 h2 hm ⊢
    unfold pinNew
    by_cases hp : sp.pinning = .byName
    · rw [if_pos hp]
      unfold pin
      by_cases hc : env.pin = true ∨ (s1.files path).isSome = true
      · rw [if_pos hc]
        refine ⟨h1.trans (close_frame h1.sane m.fd o hm.opened.2.1), fun err _ => ⟨?_, h2⟩, (fun m hm => by cases hm)⟩
        show upd s1.fds m.fd none = s.fds
        rw [opened_fds hm.opened]
        exact upd_back _ _ _ _ hm.opened.1
      · rw [if_neg hc]
        have hnone : s1.files path = none := by
          cases hx : s1.files path with
          | none => rfl
          | some _ => exact absurd (Or.inr (by rw [hx]; rfl)) hc
        refine ⟨⟨h1.fd, h1.obj, h1.objs, h1.bad, ⟨h1.sane.fds, h1.sane.objs, h1.sane.open_, ?_⟩⟩, (fun err hx => by cases hx), fun m' hm' => ?_⟩
        · intro p o' ho'
          have ho2 : upd s1.files path (s1.fds m.fd) p = some o' := ho'
          by_cases hpp : p = path
          · rw [hpp, upd_same] at ho2; exact h1.sane.open_ _ _ ho2
          · rw [upd_other _ _ hpp] at ho2; exact h1.sane.files _ _ ho2
        · cases hm'
          refine ⟨o, a, ha, hm.opened, hm.new, hm.attr, hm.obj, fun _ => ⟨rfl, by rw [← h2]; exact hnone, ?_⟩, fun h => absurd hp h⟩
          show upd s1.files path (s1.fds m.fd) = _
          rw [hm.opened.2.1, h2]
    · rw [if_neg hp]
      refine ⟨h1, (fun err hx => by cases hx), fun m' hm' => ?_⟩
      cases hm'
      exact ⟨o, a, ha, hm.opened, hm.new, hm.attr, hm.obj, fun h => absurd h hp, fun _ => ⟨hm.path, h2⟩⟩

/-- Maps that hold maps are made with a template as the spec's InnerMap says, others with none. -/
def InnerAs (env : Env) (sp : Spec) (s s' : St) (o : Nat) (inner : Option Nat) : Prop :=
  if canStoreMap sp.one.m.type then
    ∃ i t ob a, sp.inner = some i ∧ inner = some t ∧ t ≠ o ∧ s.nextObj ≤ t ∧ s'.objs t = some ob ∧ ob.isMap = true ∧ (fixup env.cpus i.m).1 = some a ∧ ob.attr = a ∧ ob.contents = [] ∧ ob.frozen = false
  else inner = none

theorem createNew_spec (env : Env) (sp : Spec) (path : Nat) (s : St) (hs : Sane s) :
    Frame s (createNew env sp path s).1 ∧
    (∀ err, (createNew env sp path s).2 = .error err → (createNew env sp path s).1.fds = s.fds ∧ (createNew env sp path s).1.files = s.files) ∧
    (∀ m, (createNew env sp path s).2 = .ok m → ∃ o a inner, (fixup env.cpus sp.one.m).1 = some a ∧ InnerAs env sp s (createNew env sp path s).1 o inner ∧
      Created sp.pinning path s (createNew env sp path s).1 m o a inner) := by
  unfold createNew InnerAs
  by_cases hcs : canStoreMap sp.one.m.type = true
  · simp only [hcs, if_true]
    cases hi : sp.inner with
    | none => exact ⟨Frame.refl hs, fun _ _ => ⟨rfl, rfl⟩, (fun m hm => by cases hm)⟩
    | some i =>
      simp only
      by_cases hp : sp.innerPinned = true
      · rw [if_pos hp]; exact ⟨Frame.refl hs, fun _ _ => ⟨rfl, rfl⟩, (fun m hm => by cases hm)⟩
      · rw [if_neg hp]
        obtain ⟨h1, h2, h3, h4⟩ := createMap_spec env.cpus env.inner i none s hs (fun t h => by cases h)
        obtain ⟨r, hr⟩ : ∃ r, r = createMap env.cpus env.inner i none s := ⟨_, rfl⟩
        rw [← hr] at h1 h2 h3 h4 ⊢
        obtain ⟨s1, res⟩ := r
        cases res with
        | error e => exact ⟨h1, fun _ _ => ⟨h3 e rfl, h2⟩, (fun m hm => by cases hm)⟩
        | ok t =>
          obtain ⟨ot, at_, hat, ht⟩ := h4 t rfl
          simp only at h1 h2 ht ⊢
          have htl := sane_lt h1.sane ht.opened.2.1
          obtain ⟨k1, k2, k3⟩ := createOuter_spec env sp path (some t.fd) s1 h1.sane (fun x hx => by cases hx; exact htl)
          obtain ⟨r, hr'⟩ : ∃ r, r = createOuter env sp path (some t.fd) s1 := ⟨_, rfl⟩
          rw [← hr'] at k1 k2 k3 ⊢
          obtain ⟨s2, res⟩ := r
          cases res with
          | error e =>
            obtain ⟨g1, g2⟩ := k2 e rfl
            simp only at g1 g2 k1 ⊢
            have hop : s2.fds t.fd = some ot := by rw [g1]; exact ht.opened.2.1
            refine ⟨(h1.trans k1).trans (close_frame k1.sane t.fd ot hop), fun _ _ => ⟨?_, ?_⟩, (fun m hm => by cases hm)⟩
            · show upd s2.fds t.fd none = _
              rw [g1, opened_fds ht.opened]; exact upd_back _ _ _ _ ht.opened.1
            · show s2.files = _
              rw [g2, h2]
          | ok m =>
            obtain ⟨o, a, ha, hm⟩ := k3 m rfl
            simp only at k1 hm ⊢
            have hne : m.fd ≠ t.fd := by
              intro h
              have := hm.opened.1
              rw [h, ht.opened.2.1] at this; cases this
            have hop : s2.fds t.fd = some ot := by rw [hm.opened.2.2 _ (fun h => hne h.symm)]; exact ht.opened.2.1
            refine ⟨(h1.trans k1).trans (close_frame k1.sane t.fd ot hop), (fun _ hx => by cases hx), fun m' hm' => ?_⟩
            cases hm'
            obtain ⟨b, hb⟩ := ht.obj
            refine ⟨o, a, some ot, ha, ⟨i, ot, ⟨true, at_, b, none, [], false⟩, at_, rfl, rfl, (by have := opened_lt h1.sane ht.opened; have := hm.new; omega), ht.new, ?_, rfl, hat, rfl, rfl, rfl⟩, ⟨?_, ?_, ?_⟩, Nat.le_trans h1.obj hm.new, hm.attr, ?_, ?_, ?_⟩
            · show s2.objs ot = _
              rw [k1.objs ot (opened_lt h1.sane ht.opened)]; exact hb
            · rw [← ht.opened.2.2 _ hne]; exact hm.opened.1
            · show upd s2.fds t.fd none m.fd = _
              rw [upd_other _ _ hne]; exact hm.opened.2.1
            · intro n hn
              show upd s2.fds t.fd none n = _
              by_cases hnt : n = t.fd
              · rw [hnt, upd_same, ht.opened.1]
              · rw [upd_other _ _ hnt, hm.opened.2.2 n hn, ht.opened.2.2 n hnt]
            · have := hm.obj
              simp only [Option.bind_some, ht.opened.2.1] at this
              exact this
            · intro hpn
              obtain ⟨q1, q2, q3⟩ := hm.pinned hpn
              exact ⟨q1, by rw [← h2]; exact q2, by rw [← h2]; exact q3⟩
            · intro hpn
              obtain ⟨q1, q2⟩ := hm.plain hpn
              exact ⟨q1, by rw [← h2]; exact q2⟩
  · have hcs' : canStoreMap sp.one.m.type = false := by simpa using hcs
    simp only [hcs']
    obtain ⟨h1, h2, h3⟩ := createOuter_spec env sp path none s hs (fun t h => by cases h)
    refine ⟨h1, h2, fun m hm => ?_⟩
    obtain ⟨o, a, ha, hc⟩ := h3 m hm
    exact ⟨o, a, none, ha, (by simp), hc⟩

theorem openPin_frame {s : St} (hs : Sane s) (o : Nat) (ho : o < s.nextObj) : Frame s { s with fds := upd s.fds s.nextFd (some o), nextFd := s.nextFd + 1 } where
  fd := Nat.le_succ _
  obj := Nat.le_refl _
  objs := fun _ _ => rfl
  bad := rfl
  sane := by
    refine ⟨fun n hn => ?_, hs.objs, fun n o' ho' => ?_, hs.files⟩
    · have hn' : s.nextFd + 1 ≤ n := hn
      show upd s.fds s.nextFd _ n = none
      rw [upd_other _ _ (by omega)]; exact hs.fds n (by omega)
    · have ho2 : upd s.fds s.nextFd (some o) n = some o' := ho'
      by_cases hn : n = s.nextFd
      · rw [hn, upd_same] at ho2; cases ho2; exact ho
      · rw [upd_other _ _ hn] at ho2; exact hs.open_ n o' ho2

/-- What loading a pinned map gives. -/
structure Got (path : Nat) (s s' : St) (m : Handle) (o : Nat) (ob : Obj) : Prop where
  file : s.files path = some o
  obj : s.objs o = some ob
  isMap : ob.isMap = true
  attr : m.attr = ob.attr
  path : m.path = some path
  opened : Opened s s' m.fd o

theorem loadPinned_spec (env : Env) (path : Nat) (s : St) (hs : Sane s) (hcpu : env.cpus ≠ none) :
    Frame s (loadPinned env path s).1 ∧ (loadPinned env path s).1.files = s.files ∧ (loadPinned env path s).1.objs = s.objs ∧ (loadPinned env path s).1.nextObj = s.nextObj ∧
    (∀ m, (loadPinned env path s).2 = .ok m → ∃ o ob, Got path s (loadPinned env path s).1 m o ob) ∧
    ((∀ m, (loadPinned env path s).2 ≠ .ok m) → (loadPinned env path s).1.fds = s.fds) := by
  unfold loadPinned
  cases hf : s.files path with
  | none => exact ⟨Frame.refl hs, rfl, rfl, rfl, (fun m hm => by cases hm), fun _ => rfl⟩
  | some o =>
    simp only
    cases hob : s.objs o with
    | none => exact ⟨Frame.refl hs, rfl, rfl, rfl, (fun m hm => by cases hm), fun _ => rfl⟩
    | some ob =>
      simp only
      by_cases hg : env.objGet = true
      · rw [if_pos hg]; exact ⟨Frame.refl hs, rfl, rfl, rfl, (fun m hm => by cases hm), fun _ => rfl⟩
      · rw [if_neg hg]
        have hfr := openPin_frame hs o (hs.files path o hf)
        have hop : ({ s with fds := upd s.fds s.nextFd (some o), nextFd := s.nextFd + 1 } : St).fds s.nextFd = some o := upd_same _ _ _
        have hcl := hfr.trans (close_frame hfr.sane s.nextFd o hop)
        have hback : (St.close { s with fds := upd s.fds s.nextFd (some o), nextFd := s.nextFd + 1 } s.nextFd).fds = s.fds := upd_back s.fds s.nextFd _ none (hs.fds _ (Nat.le_refl _))
        cases hr : env.readType with
        | some b =>
          cases b with
          | true => exact ⟨hcl, rfl, rfl, rfl, (fun m hm => by cases hm), fun _ => hback⟩
          | false => exact ⟨hcl, rfl, rfl, rfl, (fun m hm => by cases hm), fun _ => hback⟩
        | none =>
          simp only
          by_cases hm : ob.isMap = false
          · rw [if_pos hm]; exact ⟨hcl, rfl, rfl, rfl, (fun m hm => by cases hm), fun _ => hback⟩
          · rw [if_neg hm]
            unfold newMapFromFD
            by_cases hi : env.info = true
            · rw [if_pos hi]; exact ⟨hcl, rfl, rfl, rfl, (fun m hm => by cases hm), fun _ => hback⟩
            · rw [if_neg hi]
              cases hn : newMapFromParts env.cpus s.nextFd ob.attr with
              | none =>
                exfalso
                unfold newMapFromParts at hn
                cases hc : env.cpus with
                | none => exact hcpu hc
                | some n => rw [hc] at hn; simp at hn
              | some m =>
                refine ⟨hfr, rfl, rfl, rfl, (fun m' hm' => ?_), fun h => absurd rfl (h _)⟩
                cases hm'
                have := parts_eq hn
                subst this
                refine ⟨o, ob, hf, hob, by simpa using hm, rfl, rfl, hs.fds _ (Nat.le_refl _), hop, fun n hn => upd_other _ _ hn⟩

theorem race_frame {s : St} (hs : Sane s) (env : Env) (path : Nat) (hr : ∀ o, env.race = some o → o < s.nextObj) :
    Frame s (s.race env path) ∧ (s.race env path).fds = s.fds ∧ (s.race env path).objs = s.objs ∧ (s.race env path).nextObj = s.nextObj ∧
    (s.race env path).files = s.files ∨
    Frame s (s.race env path) ∧ (s.race env path).fds = s.fds ∧ (s.race env path).objs = s.objs ∧ (s.race env path).nextObj = s.nextObj ∧
      s.files path = none ∧ ∃ o, env.race = some o ∧ (s.race env path).files = upd s.files path (some o) := by
  unfold St.race
  cases h : env.race with
  | none => exact .inl ⟨Frame.refl hs, rfl, rfl, rfl, rfl⟩
  | some o =>
    simp only
    cases hf : s.files path with
    | some x => exact .inl ⟨Frame.refl hs, rfl, rfl, rfl, rfl⟩
    | none =>
      refine .inr ⟨⟨Nat.le_refl _, Nat.le_refl _, fun _ _ => rfl, rfl, hs.fds, hs.objs, hs.open_, fun p o' ho' => ?_⟩, rfl, rfl, rfl, rfl, o, rfl, rfl⟩
      have ho2 : upd s.files path (some o) p = some o' := ho'
      by_cases hp : p = path
      · rw [hp, upd_same] at ho2; cases ho2; exact hr _ h
      · rw [upd_other _ _ hp] at ho2; exact hs.files _ _ ho2

theorem mapInMap_iff (sp : MSpec) : canStoreMap sp.type = true ↔ MapInMap sp := by
  unfold canStoreMap MapInMap tArrayOfMaps tHashOfMaps tWindowsArrayOfMaps tWindowsHashOfMaps
  simp only [Bool.or_eq_true, beq_iff_eq, or_assoc]
  constructor <;> (intro h; rcases h with h | h | h | h <;> simp [h])

theorem template_of {n : BitVec 32} {env : Env} (hn : env.cpus = some n) {sp : Spec} {s s' : St} {o : Nat} {inner : Option Nat} (h : InnerAs env sp s s' o inner) : Template n sp s s' o inner := by
  unfold InnerAs at h
  by_cases hc : canStoreMap sp.one.m.type = true
  · rw [if_pos hc] at h
    refine ⟨fun _ => ?_, fun hm => absurd ((mapInMap_iff _).mp hc) hm⟩
    obtain ⟨i, t, ob, a, h1, h2, h0, h3, h4, h5, h6, h7, h8, h9⟩ := h
    rw [hn] at h6
    refine ⟨i, t, ob, h1, h2, h0, h3, h4, h5, ?_, h8, h9⟩
    rw [h7]
    exact (fixup_iff n i.m a).mp h6
  · rw [if_neg hc] at h
    exact ⟨fun hm => absurd ((mapInMap_iff _).mpr hm) hc, fun _ => h⟩

theorem template_mono {n : BitVec 32} {sp : Spec} {s s1 s2 s3 : St} {o : Nat} {inner : Option Nat} (h : Template n sp s1 s2 o inner) (h1 : s.nextObj ≤ s1.nextObj) (h2 : s3.objs = s2.objs) :
    Template n sp s s3 o inner := by
  refine ⟨fun hm => ?_, h.2⟩
  obtain ⟨i, t, ob, g1, g2, g0, g3, g4, g5⟩ := h.1 hm
  exact ⟨i, t, ob, g1, g2, g0, Nat.le_trans h1 g3, by rw [h2]; exact g4, g5⟩

/-- C82: newMapWithOptions. -/
theorem newMapWithOptions_spec (n : BitVec 32) (env : Env) (hn : env.cpus = some n) (sp : Spec) (pinPath : Option Nat) (s : St) (hs : Sane s)
    (hr : ∀ o, env.race = some o → o < s.nextObj) :
    Frame s (newMapWithOptions env sp pinPath s).1 ∧
    (∀ err, (newMapWithOptions env sp pinPath s).2 = .error err → (newMapWithOptions env sp pinPath s).1.fds = s.fds ∧ OnlyOthers env pinPath s (newMapWithOptions env sp pinPath s).1) ∧
    (∀ m, (newMapWithOptions env sp pinPath s).2 = .ok m → ∃ o ob, Opened s (newMapWithOptions env sp pinPath s).1 m.fd o ∧ m.attr = ob.attr ∧
      (newMapWithOptions env sp pinPath s).1.objs o = some ob ∧ Pinned sp pinPath s (newMapWithOptions env sp pinPath s).1 m o ∧
      (Reused n sp pinPath s o ob ∨ Fresh n sp pinPath s (newMapWithOptions env sp pinPath s).1 o ob)) := by
  have trivialCase : ∀ e : Err, Frame s s ∧ (∀ err, (Except.error e : Except Err Handle) = .error err → s.fds = s.fds ∧ OnlyOthers env pinPath s s) ∧
      (∀ m, (Except.error e : Except Err Handle) = .ok m → ∃ o ob, Opened s s m.fd o ∧ m.attr = ob.attr ∧ s.objs o = some ob ∧ Pinned sp pinPath s s m o ∧ (Reused n sp pinPath s o ob ∨ Fresh n sp pinPath s s o ob)) :=
    fun e => ⟨Frame.refl hs, fun _ _ => ⟨rfl, fun _ => .inl rfl⟩, (fun m hm => by cases hm)⟩
  unfold newMapWithOptions
  cases hp : sp.pinning with
  | other => exact trivialCase _
  | none =>
    simp only
    obtain ⟨h1, h2, h3⟩ := createNew_spec env sp 0 s hs
    refine ⟨h1, fun err he => ?_, fun m hm => ?_⟩
    · obtain ⟨g1, g2⟩ := h2 err he
      exact ⟨g1, fun p => .inl (by rw [g2])⟩
    · obtain ⟨o, a, inner, ha, hi, hc⟩ := h3 m hm
      obtain ⟨b, hob⟩ := hc.obj
      have hne : sp.pinning ≠ .byName := by rw [hp]; intro h; cases h
      refine ⟨o, _, hc.opened, ?_, hob, ⟨fun h => absurd h hne, fun _ => hc.plain hne⟩, .inr ⟨hc.new, fun h => absurd h hne, rfl, ?_, rfl, rfl, template_of hn hi⟩⟩
      · exact hc.attr
      · rw [hn] at ha; exact (fixup_iff n sp.one.m a).mp ha
  | byName =>
    simp only
    by_cases hnm : sp.named = false
    · rw [if_pos hnm]; exact trivialCase _
    · rw [if_neg hnm]
      cases pinPath with
      | none => exact trivialCase _
      | some path =>
        simp only
        obtain ⟨h1, h2, h3, h4, h5, h6⟩ := loadPinned_spec env path s hs (by rw [hn]; intro h; cases h)
        obtain ⟨r, hr'⟩ : ∃ r, r = loadPinned env path s := ⟨_, rfl⟩
        rw [← hr'] at h1 h2 h3 h4 h5 h6 ⊢
        obtain ⟨s1, res⟩ := r
        cases res with
        | error e =>
          have := h6 (fun m hm => by cases hm)
          exact ⟨h1, fun _ _ => ⟨this, fun p => .inl (by rw [h2])⟩, (fun m hm => by cases hm)⟩
        | ok m =>
          simp only at h1 h2 h3 h4 ⊢
          obtain ⟨o, ob, hg⟩ := h5 m rfl
          simp only at hg
          by_cases hc : (compatible env.cpus sp.one.m ⟨m.attr.type, m.attr.keySize, m.attr.valueSize, m.attr.maxEntries, m.attr.flags⟩).1 = true
          · rw [if_pos hc]
            refine ⟨h1, (fun _ hx => by cases hx), fun m' hm' => ?_⟩
            cases hm'
            refine ⟨o, ob, hg.opened, hg.attr, by rw [h3]; exact hg.obj, ⟨fun _ => ⟨hg.path, path, rfl, by rw [h2]; exact hg.file, fun p _ => by rw [h2]⟩, fun h => absurd hp h⟩, .inl ⟨hp, ⟨path, rfl, hg.file⟩, hg.obj, hg.isMap, ?_⟩⟩
            rw [hn] at hc
            have := (compatible_iff n sp.one.m _).mp hc
            rw [hg.attr] at this
            exact this
          · rw [if_neg hc]
            refine ⟨h1.trans (close_frame h1.sane m.fd o hg.opened.2.1), fun _ _ => ⟨?_, fun p => .inl ?_⟩, (fun m hm => by cases hm)⟩
            · show upd s1.fds m.fd none = _
              rw [opened_fds hg.opened]; exact upd_back _ _ _ _ hg.opened.1
            · show s1.files p = _
              rw [h2]
        | notExist =>
          simp only at h1 h2 h3 h4 ⊢
          have h7 : s1.fds = s.fds := h6 (fun m hm => by cases hm)
          have hrc := race_frame h1.sane env path (by rw [h4]; exact hr)
          obtain ⟨hfr, k1, k2, k3⟩ : Frame s1 (s1.race env path) ∧ (s1.race env path).fds = s1.fds ∧ (s1.race env path).objs = s1.objs ∧ (s1.race env path).nextObj = s1.nextObj := by
            rcases hrc with h | h
            · exact ⟨h.1, h.2.1, h.2.2.1, h.2.2.2.1⟩
            · exact ⟨h.1, h.2.1, h.2.2.1, h.2.2.2.1⟩
          have hoth : OnlyOthers env (some path) s (s1.race env path) := by
            intro p
            rcases hrc with h | h
            · exact .inl (by rw [h.2.2.2.2, h2])
            · obtain ⟨_, _, _, _, hnone, o, ho, hf⟩ := h
              rw [hf]
              by_cases hpp : p = path
              · exact .inr ⟨by rw [hpp], by rw [hpp, ← h2]; exact hnone, by rw [hpp, upd_same, ho]⟩
              · exact .inl (by rw [upd_other _ _ hpp, h2])
          obtain ⟨q1, q2, q3⟩ := createNew_spec env sp path (s1.race env path) hfr.sane
          refine ⟨(h1.trans hfr).trans q1, fun err he => ?_, fun m hm => ?_⟩
          · obtain ⟨g1, g2⟩ := q2 err he
            refine ⟨by rw [g1, k1, h7], fun p => ?_⟩
            rw [g2]; exact hoth p
          · obtain ⟨o, a, inner, ha, hi, hc⟩ := q3 m hm
            obtain ⟨b, hob⟩ := hc.obj
            obtain ⟨p1, p2, p3⟩ := hc.pinned hp
            have hfiles : (s1.race env path).files = s.files := by
              rcases hrc with h | h
              · rw [h.2.2.2.2, h2]
              · obtain ⟨_, _, _, _, hnone, o, ho, hf⟩ := h
                rw [hf, upd_same] at p2; cases p2
            rw [hfiles] at p2 p3
            have hop := hc.opened
            unfold Opened at hop
            rw [k1, h7] at hop
            refine ⟨o, _, hop, ?_, hob, ⟨fun _ => ⟨p1, path, rfl, by rw [p3, upd_same], fun p hpp => by rw [p3, upd_other _ _ hpp]⟩, fun h => absurd hp h⟩,
              .inr ⟨by have := hc.new; rw [k3, h4] at this; exact this, fun _ => ⟨path, rfl, p2⟩, rfl, ?_, rfl, rfl, template_mono (template_of hn hi) (by rw [k3, h4]; exact Nat.le_refl _) rfl⟩⟩
            · exact hc.attr
            · rw [hn] at ha; exact (fixup_iff n sp.one.m a).mp ha

/-- What changing the contents leaves alone: everything but the one object. -/
structure Only (o : Nat) (s s' : St) : Prop where
  fds : s'.fds = s.fds
  nextFd : s'.nextFd = s.nextFd
  nextObj : s'.nextObj = s.nextObj
  files : s'.files = s.files
  bad : s'.bad = s.bad
  objs : ∀ i, i ≠ o → s'.objs i = s.objs i

theorem modify_only {s : St} {fd o : Nat} {ob : Obj} (f : Obj → Obj) (h : s.fds fd = some o) (hob : s.objs o = some ob) :
    Only o s (s.modify fd f) ∧ (s.modify fd f).objs o = some (f ob) := by
  unfold St.modify
  simp only [h, hob]
  exact ⟨⟨rfl, rfl, rfl, rfl, rfl, fun i hi => upd_other _ _ hi⟩, upd_same _ _ _⟩

theorem putAll_spec (env : Env) (fd o : Nat) : ∀ (l : List (Nat × Nat)) (i : Nat) (s : St) (ob : Obj), s.fds fd = some o → s.objs o = some ob →
    Only o s (putAll env fd l i s).1 ∧ ∃ done, done <+: l ∧ (putAll env fd l i s).1.objs o = some { ob with contents := ob.contents ++ done } ∧
      ((putAll env fd l i s).2 = true → done = l) := by
  intro l
  induction l with
  | nil =>
    intro i s ob h hob
    exact ⟨⟨rfl, rfl, rfl, rfl, rfl, fun _ _ => rfl⟩, [], List.prefix_refl _, by rw [List.append_nil]; exact hob, fun _ => rfl⟩
  | cons kv r ih =>
    intro i s ob h hob
    unfold putAll
    by_cases hp : env.put i = true
    · rw [if_pos hp]
      exact ⟨⟨rfl, rfl, rfl, rfl, rfl, fun _ _ => rfl⟩, [], List.nil_prefix, by rw [List.append_nil]; exact hob, (fun hx => by cases hx)⟩
    · rw [if_neg hp]
      obtain ⟨h1, h2⟩ := modify_only (fun o => { o with contents := o.contents ++ [kv] }) h hob
      obtain ⟨g1, done, g2, g3, g4⟩ := ih (i + 1) _ _ (by rw [h1.fds]; exact h) h2
      refine ⟨⟨by rw [g1.fds, h1.fds], by rw [g1.nextFd, h1.nextFd], by rw [g1.nextObj, h1.nextObj], by rw [g1.files, h1.files], by rw [g1.bad, h1.bad], fun i hi => by rw [g1.objs i hi, h1.objs i hi]⟩, kv :: done, ?_, ?_, fun ht => by rw [g4 ht]⟩
      · obtain ⟨t, ht⟩ := g2
        exact ⟨t, by rw [← ht]; rfl⟩
      · rw [g3]; simp

theorem finalize_spec (env : Env) (sp : Spec) (m : Handle) (s : St) (o : Nat) (ob : Obj) (h : s.fds m.fd = some o) (hob : s.objs o = some ob) :
    Only o s (finalize env sp m s).1 ∧
    ((finalize env sp m s).2 = true → (finalize env sp m s).1.objs o = some { ob with contents := ob.contents ++ sp.contents, frozen := ob.frozen || sp.freeze }) ∧
    ((finalize env sp m s).2 = false → ∃ done, done <+: sp.contents ∧ (finalize env sp m s).1.objs o = some { ob with contents := ob.contents ++ done }) := by
  obtain ⟨h1, done, h2, h3, h4⟩ := putAll_spec env m.fd o sp.contents 0 s ob h hob
  unfold finalize
  obtain ⟨r, hr⟩ : ∃ r, r = putAll env m.fd sp.contents 0 s := ⟨_, rfl⟩
  rw [← hr] at h1 h3 h4 ⊢
  obtain ⟨s1, b⟩ := r
  cases b with
  | false => exact ⟨h1, (fun hx => by cases hx), fun _ => ⟨done, h2, h3⟩⟩
  | true =>
    have hd := h4 rfl
    subst hd
    simp only at h1 h3 ⊢
    cases hfz : sp.freeze with
    | false =>
      simp only [Bool.or_false]
      exact ⟨h1, fun _ => h3, (fun hx => by cases hx)⟩
    | true =>
      simp only [if_true]
      by_cases he : env.freeze = true
      · rw [if_pos he]
        exact ⟨h1, (fun hx => by cases hx), fun _ => ⟨_, h2, h3⟩⟩
      · rw [if_neg he]
        obtain ⟨g1, g2⟩ := modify_only (fun o => { o with frozen := true }) (s := s1) (fd := m.fd) (by rw [h1.fds]; exact h) h3
        refine ⟨⟨by rw [g1.fds, h1.fds], by rw [g1.nextFd, h1.nextFd], by rw [g1.nextObj, h1.nextObj], by rw [g1.files, h1.files], by rw [g1.bad, h1.bad], fun i hi => by rw [g1.objs i hi, h1.objs i hi]⟩, fun _ => ?_, (fun hx => by cases hx)⟩
        rw [g2]; simp

/-- C82: every descriptor opened on the way is closed again, but for the one that is returned. -/
theorem newMap_descriptors_partial (n : BitVec 32) (env : Env) (hn : env.cpus = some n) (sp : Spec) (pinPath : Option Nat) (s : St) (hs : Sane s)
    (hr : ∀ o, env.race = some o → o < s.nextObj) :
    (newMap env sp pinPath s).1.bad = s.bad ∧
    (∀ err, (newMap env sp pinPath s).2 = .error err → (newMap env sp pinPath s).1.fds = s.fds) ∧
    (∀ m, (newMap env sp pinPath s).2 = .ok m → ∃ o, Opened s (newMap env sp pinPath s).1 m.fd o) := by
  obtain ⟨h1, h2, h3⟩ := newMapWithOptions_spec n env hn sp pinPath s hs hr
  unfold newMap
  obtain ⟨r, hr'⟩ : ∃ r, r = newMapWithOptions env sp pinPath s := ⟨_, rfl⟩
  rw [← hr'] at h1 h2 h3 ⊢
  obtain ⟨s1, res⟩ := r
  cases res with
  | error e => exact ⟨h1.bad, fun _ _ => (h2 e rfl).1, (fun m hm => by cases hm)⟩
  | ok m =>
    obtain ⟨o, ob, ho, _, hob, _, _⟩ := h3 m rfl
    simp only at ho hob h1 ⊢
    obtain ⟨g1, _, _⟩ := finalize_spec env sp m s1 o ob ho.2.1 hob
    obtain ⟨r, hr2⟩ : ∃ r, r = finalize env sp m s1 := ⟨_, rfl⟩
    rw [← hr2] at g1 ⊢
    obtain ⟨s2, b⟩ := r
    simp only at g1
    cases b with
    | true =>
      refine ⟨by rw [← h1.bad]; exact g1.bad, (fun _ hx => by cases hx), fun m' hm' => ?_⟩
      cases hm'
      exact ⟨o, ho.1, by rw [g1.fds]; exact ho.2.1, fun k hk => by rw [g1.fds]; exact ho.2.2 k hk⟩
    | false =>
      refine ⟨?_, fun _ _ => ?_, (fun m hm => by cases hm)⟩
      · show (s2.bad || (s2.fds m.fd).isNone) = _
        rw [g1.fds, ho.2.1, g1.bad, h1.bad]; simp
      · show upd s2.fds m.fd none = _
        rw [g1.fds, opened_fds ho]; exact upd_back _ _ _ _ ho.1

/-- C82: the map that is returned: an existing one that suits, or a new one, pinned as asked, with the contents added. -/
theorem newMap_result_partial (n : BitVec 32) (env : Env) (hn : env.cpus = some n) (sp : Spec) (pinPath : Option Nat) (s : St) (hs : Sane s)
    (hr : ∀ o, env.race = some o → o < s.nextObj) (m : Handle) (hm : (newMap env sp pinPath s).2 = .ok m) :
    ∃ o ob ob', (newMap env sp pinPath s).1.fds m.fd = some o ∧ m.attr = ob.attr ∧ Pinned sp pinPath s (newMap env sp pinPath s).1 m o ∧
      (Reused n sp pinPath s o ob ∨ Fresh n sp pinPath s (newMap env sp pinPath s).1 o ob) ∧
      (newMap env sp pinPath s).1.objs o = some ob' ∧ ob'.attr = ob.attr ∧ ob'.inner = ob.inner ∧ ob'.contents = ob.contents ++ sp.contents ∧ (ob'.frozen = true ↔ ob.frozen = true ∨ sp.freeze = true) ∧
      (∀ i, i < s.nextObj → i ≠ o → (newMap env sp pinPath s).1.objs i = s.objs i) := by
  obtain ⟨h1, h2, h3⟩ := newMapWithOptions_spec n env hn sp pinPath s hs hr
  unfold newMap at hm ⊢
  obtain ⟨r, hr'⟩ : ∃ r, r = newMapWithOptions env sp pinPath s := ⟨_, rfl⟩
  rw [← hr'] at h1 h2 h3 hm ⊢
  obtain ⟨s1, res⟩ := r
  cases res with
  | error e => cases hm
  | ok m1 =>
    obtain ⟨o, ob, ho, ha, hob, hp, hk⟩ := h3 m1 rfl
    simp only at ho hob hp hk h1 hm ⊢
    obtain ⟨g1, g2, _⟩ := finalize_spec env sp m1 s1 o ob ho.2.1 hob
    obtain ⟨r, hr2⟩ : ∃ r, r = finalize env sp m1 s1 := ⟨_, rfl⟩
    rw [← hr2] at g1 g2 hm ⊢
    obtain ⟨s2, b⟩ := r
    cases b with
    | false => cases hm
    | true =>
      cases hm
      simp only at g1 g2 ⊢
      refine ⟨o, ob, _, by rw [g1.fds]; exact ho.2.1, ha, ?_, ?_, g2 trivial, rfl, rfl, rfl, (by simp), fun i hi hio => by rw [g1.objs i hio, h1.objs i hi]⟩
      · unfold Pinned; rw [g1.files]; exact hp
      · rcases hk with h | h
        · exact .inl h
        · refine .inr ⟨h.1, h.2.1, h.2.2.1, h.2.2.2.1, h.2.2.2.2.1, h.2.2.2.2.2.1, fun hmm => ?_, h.2.2.2.2.2.2.2⟩
          obtain ⟨i, t, tob, q1, q2, q0, q3, q4, q5⟩ := h.2.2.2.2.2.2.1 hmm
          exact ⟨i, t, tob, q1, q2, q0, q3, by rw [g1.objs t q0]; exact q4, q5⟩

/-- C82: after an error nothing else has changed: no file but the pin, no object but the pinned map that was to be reused. -/
theorem newMap_error_partial (n : BitVec 32) (env : Env) (hn : env.cpus = some n) (sp : Spec) (pinPath : Option Nat) (s : St) (hs : Sane s)
    (hr : ∀ o, env.race = some o → o < s.nextObj) (err : Err) (he : (newMap env sp pinPath s).2 = .error err) :
    (∀ p, pinPath ≠ some p ∨ sp.pinning ≠ .byName → (newMap env sp pinPath s).1.files p = s.files p) ∧
    (∀ p o, s.files p = some o → (newMap env sp pinPath s).1.files p = some o) ∧
    (∀ i, i < s.nextObj → (newMap env sp pinPath s).1.objs i = s.objs i ∨
      ∃ ob done, Reused n sp pinPath s i ob ∧ done <+: sp.contents ∧ (newMap env sp pinPath s).1.objs i = some { ob with contents := ob.contents ++ done }) := by
  have hplain : sp.pinning ≠ .byName → (newMapWithOptions env sp pinPath s).1.files = s.files := by
    intro hb
    unfold newMapWithOptions
    cases hp : sp.pinning with
    | byName => exact absurd hp hb
    | other => rfl
    | none =>
      simp only
      obtain ⟨_, g2, g3⟩ := createNew_spec env sp 0 s hs
      cases hx : (createNew env sp 0 s).2 with
      | error e => exact (g2 e hx).2
      | ok m => obtain ⟨_, _, _, _, _, hc⟩ := g3 m hx; exact (hc.plain hb).2
  obtain ⟨h1, h2, h3⟩ := newMapWithOptions_spec n env hn sp pinPath s hs hr
  unfold newMap at he ⊢
  obtain ⟨r, hr'⟩ : ∃ r, r = newMapWithOptions env sp pinPath s := ⟨_, rfl⟩
  rw [← hr'] at h1 h2 h3 he hplain ⊢
  obtain ⟨s1, res⟩ := r
  cases res with
  | error e =>
    refine ⟨fun p hpp => ?_, fun p o hf => ?_, fun i hi => .inl (h1.objs i hi)⟩
    · rcases (h2 e rfl).2 p with h | h
      · exact h
      · rcases hpp with h' | h'
        · exact absurd h.1 h'
        · rw [show s1.files = s.files from hplain h']
    · rcases (h2 e rfl).2 p with h | h
      · rw [← hf]; exact h
      · rw [h.2.1] at hf; cases hf
  | ok m =>
    obtain ⟨o, ob, ho, ha, hob, hp, hk⟩ := h3 m rfl
    simp only at ho hob hp hk h1 he ⊢
    obtain ⟨g1, _, g3⟩ := finalize_spec env sp m s1 o ob ho.2.1 hob
    obtain ⟨r, hr2⟩ : ∃ r, r = finalize env sp m s1 := ⟨_, rfl⟩
    rw [← hr2] at g1 g3 he ⊢
    obtain ⟨s2, b⟩ := r
    cases b with
    | true => cases he
    | false =>
      simp only at g1 g3 ⊢
      have hfiles : (s2.close m.fd).files = s1.files := g1.files
      have hobjs : (s2.close m.fd).objs = s2.objs := rfl
      refine ⟨fun p hpp => ?_, fun p o' hf => ?_, fun i hi => ?_⟩
      · rw [hfiles]
        by_cases hb : sp.pinning = .byName
        · obtain ⟨_, path, q1, _, q3⟩ := hp.1 hb
          refine q3 p (fun h => ?_)
          rcases hpp with h' | h'
          · exact h' (by rw [q1, h])
          · exact h' hb
        · rw [(hp.2 hb).2]
      · rw [hfiles]
        by_cases hb : sp.pinning = .byName
        · obtain ⟨_, path, q1, q2, q3⟩ := hp.1 hb
          by_cases hpp : p = path
          · subst hpp
            rcases hk with h | h
            · obtain ⟨_, ⟨p', e1, e2⟩, _⟩ := h
              rw [q1] at e1; cases e1
              rw [q2, ← hf, e2]
            · obtain ⟨p', e1, e2⟩ := h.2.1 hb
              rw [q1] at e1; cases e1
              rw [e2] at hf; cases hf
          · rw [q3 p hpp]; exact hf
        · rw [(hp.2 hb).2]; exact hf
      · rw [hobjs]
        by_cases hio : i = o
        · subst hio
          rcases hk with h | h
          · obtain ⟨done, d1, d2⟩ := g3 trivial
            exact .inr ⟨ob, done, h, d1, d2⟩
          · have := h.1; omega
        · exact .inl (by rw [g1.objs i hio, h1.objs i hi])

theorem createMap_works {n : BitVec 32} {e : CreateEnv} {sp : One} (ha : Accepts e sp) (hs : ∃ a, AsAsked n sp.m a) (inner : Option Nat) (s : St) :
    ∃ m, (createMap (some n) e sp inner s).2 = .ok m := by
  obtain ⟨a, hs⟩ := hs
  have hf := (fixup_iff n sp.m a).mpr hs
  obtain ⟨h1, h2, h3⟩ := ha
  unfold createMap
  simp only [h1, hf, Bool.true_eq_false, if_false]
  have parts : ∀ fd a, newMapFromParts (some n) fd a = some ⟨fd, a, none⟩ := by intro fd a; simp [newMapFromParts]
  by_cases hb : sp.btf = false
  · rw [if_pos hb]
    have hfst : e.first = none := by
      rcases h3 with h | h
      · exact h
      · rw [hb] at h; cases h.1
    unfold createWith createCalls
    simp only [hfst, parts]
    exact ⟨_, rfl⟩
  · rw [if_neg hb]
    have hb' : sp.btf = true := by simpa using hb
    cases hx : e.btf with
    | fail => exact absurd hx (h2 hb')
    | unsupported =>
      simp only
      have hfst : e.first = none := by
        rcases h3 with h | h
        · exact h
        · rw [hx] at h; cases h.2.1
      unfold createWith createCalls
      simp only [hfst, parts]
      exact ⟨_, rfl⟩
    | ok =>
      simp only
      unfold createWith createCalls
      rcases h3 with h | h
      · simp only [h, parts]; exact ⟨_, rfl⟩
      · simp only [h.2.2.1, h.2.2.2, Option.isSome_some, if_true, parts]; exact ⟨_, rfl⟩

theorem createNew_works {n : BitVec 32} {env : Env} (hn : env.cpus = some n) {sp : Spec} (hw : Works n env sp) (path : Nat) (s : St) (hs : Sane s)
    (hp : sp.pinning = .byName → env.pin = false ∧ s.files path = none) :
    ∃ m, (createNew env sp path s).2 = .ok m := by
  have outer : ∀ inner s1, Sane s1 → (∀ t, inner = some t → t < s1.nextFd) → s1.files = s.files → ∃ m, (createOuter env sp path inner s1).2 = .ok m := by
    intro inner s1 hs1 hi hf
    obtain ⟨_, h2, _, _⟩ := createMap_spec env.cpus env.outer sp.one inner s1 hs1 hi
    obtain ⟨m, hm⟩ := createMap_works hw.1 hw.2.1 inner s1
    rw [← hn] at hm
    unfold createOuter
    obtain ⟨r, hr⟩ : ∃ r, r = createMap env.cpus env.outer sp.one inner s1 := ⟨_, rfl⟩
    rw [← hr] at h2 hm ⊢
    obtain ⟨s2, res⟩ := r
    simp only at hm h2
    subst hm
    simp only
    unfold pinNew
    by_cases hb : sp.pinning = .byName
    · rw [if_pos hb]
      unfold pin
      rw [if_neg (by rw [h2, hf, (hp hb).1, (hp hb).2]; simp)]
      exact ⟨_, rfl⟩
    · rw [if_neg hb]; exact ⟨_, rfl⟩
  unfold createNew
  by_cases hc : canStoreMap sp.one.m.type = true
  · rw [if_pos hc]
    obtain ⟨hip, i, hi, hacc, hask⟩ := hw.2.2 ((mapInMap_iff _).mp hc)
    simp only [hi, hip]
    obtain ⟨h1, h2, _, h4⟩ := createMap_spec env.cpus env.inner i none s hs (fun t h => by cases h)
    obtain ⟨m, hm⟩ := createMap_works hacc hask none s
    rw [← hn] at hm
    obtain ⟨r, hr⟩ : ∃ r, r = createMap env.cpus env.inner i none s := ⟨_, rfl⟩
    rw [← hr] at h1 h2 h4 hm ⊢
    obtain ⟨s2, res⟩ := r
    simp only at hm h1 h2
    subst hm
    obtain ⟨o, a, _, hmade⟩ := h4 m rfl
    exact outer (some m.fd) s2 h1.sane (fun t h => by cases h; exact sane_lt h1.sane hmade.opened.2.1) h2
  · rw [if_neg hc]
    exact outer none s hs (fun t h => by cases h) rfl

theorem putAll_works (env : Env) (h : ∀ i, env.put i = false) (fd : Nat) : ∀ (l : List (Nat × Nat)) (i : Nat) (s : St), (putAll env fd l i s).2 = true := by
  intro l
  induction l with
  | nil => intro i s; rfl
  | cons kv r ih => intro i s; unfold putAll; rw [if_neg (by rw [h i]; simp)]; exact ih _ _

theorem newMap_of {env : Env} {sp : Spec} {pinPath : Option Nat} {s : St} {m : Handle} (h : (newMapWithOptions env sp pinPath s).2 = .ok m)
    (hput : ∀ i, env.put i = false) (hfz : env.freeze = false) : (newMap env sp pinPath s).2 = .ok m := by
  unfold newMap
  obtain ⟨r, hr⟩ : ∃ r, r = newMapWithOptions env sp pinPath s := ⟨_, rfl⟩
  rw [← hr] at h ⊢
  obtain ⟨s1, res⟩ := r
  simp only at h
  subst h
  simp only
  have hp := putAll_works env hput m.fd sp.contents 0 s1
  have hfin : (finalize env sp m s1).2 = true := by
    unfold finalize
    obtain ⟨r, hr2⟩ : ∃ r, r = putAll env m.fd sp.contents 0 s1 := ⟨_, rfl⟩
    rw [← hr2] at hp ⊢
    obtain ⟨s2, b⟩ := r
    simp only at hp
    subst hp
    simp only
    cases sp.freeze with
    | false => rfl
    | true => simp [hfz]
  obtain ⟨r, hr2⟩ : ∃ r, r = finalize env sp m s1 := ⟨_, rfl⟩
  rw [← hr2] at hfin ⊢
  obtain ⟨s2, b⟩ := r
  simp only at hfin
  subst hfin
  rfl

/-- C82: a map that can be made is made, also if the kernel refuses its BTF. -/
theorem newMap_creates (n : BitVec 32) (env : Env) (hn : env.cpus = some n) (sp : Spec) (pinPath : Option Nat) (s : St) (hs : Sane s)
    (hw : Works n env sp) (hput : ∀ i, env.put i = false) (hfz : env.freeze = false)
    (hp : sp.pinning = .none ∨ sp.pinning = .byName ∧ sp.named = true ∧ env.pin = false ∧ env.race = none ∧ ∃ path, pinPath = some path ∧ s.files path = none) :
    ∃ m, (newMap env sp pinPath s).2 = .ok m := by
  have key : ∃ m, (newMapWithOptions env sp pinPath s).2 = .ok m := by
    unfold newMapWithOptions
    rcases hp with hp | ⟨hp, hnm, hpin, hrace, path, rfl, hf⟩
    · simp only [hp]
      exact createNew_works hn hw 0 s hs (fun h => by rw [hp] at h; cases h)
    · simp only [hp, hnm, Bool.true_eq_false, if_false]
      unfold loadPinned
      simp only [hf]
      have : s.race env path = s := by unfold St.race; rw [hrace]
      rw [this]
      exact createNew_works hn hw path s hs (fun _ => ⟨hpin, hf⟩)
  obtain ⟨m, hm⟩ := key
  exact ⟨m, newMap_of hm hput hfz⟩

/-- C82: a pinned map that suits the spec is used, one that doesn't is refused. -/
theorem newMap_reuses (n : BitVec 32) (env : Env) (hn : env.cpus = some n) (sp : Spec) (path o : Nat) (ob : Obj) (s : St)
    (hp : sp.pinning = .byName) (hnm : sp.named = true) (hf : s.files path = some o) (hob : s.objs o = some ob) (hmap : ob.isMap = true)
    (h1 : env.objGet = false) (h2 : env.readType = none) (h3 : env.info = false) (hput : ∀ i, env.put i = false) (hfz : env.freeze = false) :
    (MayBeUsed n sp.one.m ob.attr → ∃ m, (newMap env sp (some path) s).2 = .ok m) ∧
    (¬ MayBeUsed n sp.one.m ob.attr → (newMap env sp (some path) s).2 = .error .incompatible) := by
  have parts : ∀ fd a, newMapFromParts (some n) fd a = some ⟨fd, a, none⟩ := by intro fd a; simp [newMapFromParts]
  have hc := compatible_iff n sp.one.m ⟨ob.attr.type, ob.attr.keySize, ob.attr.valueSize, ob.attr.maxEntries, ob.attr.flags⟩
  refine ⟨fun hu => ?_, fun hu => ?_⟩
  · have key : ∃ m, (newMapWithOptions env sp (some path) s).2 = .ok m := by
      unfold newMapWithOptions loadPinned newMapFromFD
      simp only [hp, hnm, hf, hob, h1, h2, h3, hmap, hn, parts, Bool.true_eq_false, Bool.false_eq_true, if_false]
      rw [if_pos (hc.mpr hu)]
      exact ⟨_, rfl⟩
    obtain ⟨m, hm⟩ := key
    exact ⟨m, newMap_of hm hput hfz⟩
  · unfold newMap newMapWithOptions loadPinned newMapFromFD
    simp only [hp, hnm, hf, hob, h1, h2, h3, hmap, hn, parts, Bool.true_eq_false, Bool.false_eq_true, if_false]
    rw [if_neg (fun h => hu (hc.mp h))]

/-- C82: if the number of CPUs is unknown, loading a pinned per-CPU map fails and its descriptor stays open. -/
theorem reuse_leaks (env : Env) (sp : Spec) (path o : Nat) (ob : Obj) (s : St) (hn : env.cpus = none)
    (hp : sp.pinning = .byName) (hnm : sp.named = true) (hf : s.files path = some o) (hob : s.objs o = some ob) (hmap : ob.isMap = true)
    (ht : ob.attr.type = 5 ∨ ob.attr.type = 6) (h1 : env.objGet = false) (h2 : env.readType = none) (h3 : env.info = false) :
    (newMap env sp (some path) s).2 = .error .cpus ∧ (newMap env sp (some path) s).1.fds s.nextFd = some o := by
  have parts : ∀ fd, newMapFromParts none fd ob.attr = none := by
    intro fd
    unfold newMapFromParts hasPerCPU
    rcases ht with ht | ht <;> rw [ht] <;> rfl
  unfold newMap newMapWithOptions loadPinned newMapFromFD
  simp only [hp, hnm, hf, hob, h1, h2, h3, hmap, hn, parts, Bool.true_eq_false, Bool.false_eq_true, if_false]
  exact ⟨trivial, upd_same _ _ _⟩

/-- C82: a map that can't be filled stays pinned. -/
theorem failed_contents_stay_pinned (n : BitVec 32) (env : Env) (hn : env.cpus = some n) (sp : Spec) (path : Nat) (s : St) (hs : Sane s)
    (hw : Works n env sp) (hput : env.put 0 = true) (hcon : sp.contents ≠ [])
    (hp : sp.pinning = .byName) (hnm : sp.named = true) (hpin : env.pin = false) (hrace : env.race = none) (hf : s.files path = none) :
    (∃ e, (newMap env sp (some path) s).2 = .error e) ∧ ∃ o, s.nextObj ≤ o ∧ (newMap env sp (some path) s).1.files path = some o := by
  have key : ∃ m, (newMapWithOptions env sp (some path) s).2 = .ok m := by
    unfold newMapWithOptions loadPinned
    simp only [hp, hnm, hf, Bool.true_eq_false, if_false]
    have : s.race env path = s := by unfold St.race; rw [hrace]
    rw [this]
    exact createNew_works hn hw path s hs (fun _ => ⟨hpin, hf⟩)
  obtain ⟨m, hm⟩ := key
  obtain ⟨_, _, h3⟩ := newMapWithOptions_spec n env hn sp (some path) s hs (fun o h => by rw [hrace] at h; cases h)
  obtain ⟨o, ob, ho, _, hob, hpi, hk⟩ := h3 m hm
  have hfin : ∀ s1, finalize env sp m s1 = (s1, false) := by
    intro s1
    unfold finalize
    cases hc : sp.contents with
    | nil => exact absurd hc hcon
    | cons kv r => unfold putAll; rw [if_pos hput]
  unfold newMap
  obtain ⟨r, hr'⟩ : ∃ r, r = newMapWithOptions env sp (some path) s := ⟨_, rfl⟩
  rw [← hr'] at hm ho hob hpi hk ⊢
  obtain ⟨s1, res⟩ := r
  simp only at hm
  subst hm
  simp only [hfin]
  refine ⟨⟨_, rfl⟩, o, ?_, ?_⟩
  · rcases hk with h | h
    · obtain ⟨_, ⟨p, e1, e2⟩, _⟩ := h
      cases e1; rw [hf] at e2; cases e2
    · exact h.1
  · obtain ⟨_, p, e1, e2, _⟩ := hpi.1 hp
    cases e1; exact e2

/-- A state with one pinned array map (object 0 at path 7). -/
def exSt : St where
  fds := fun _ => none
  nextFd := 3
  objs := fun i => if i = 0 then some ⟨true, ⟨2, 4, 8, 1, 0⟩, false, none, [(1, 1)], false⟩ else none
  nextObj := 1
  files := fun p => if p = 7 then some 0 else none
  bad := false

/-- Nothing fails, but the kernel wants no BTF. -/
def exEnv : Env := ⟨some 4, false, none, false, ⟨.ok, some .retry, none⟩, ⟨.ok, some .retry, none⟩, none, false, fun _ => false, false⟩

/-- A hash of arrays with contents, pinned. -/
def exSpec : Spec := ⟨⟨⟨13, 4, 0, 10, 0⟩, true, true⟩, true, .byName, some ⟨⟨2, 4, 8, 1, 0⟩, true, true⟩, false, [(5, 6)], false⟩

/-- The hypotheses of the theorems are met. -/
example : Sane exSt ∧ Works 4 exEnv exSpec ∧ exSt.files 9 = none ∧ (∀ o, exEnv.race = some o → o < exSt.nextObj) := by
  refine ⟨⟨fun _ _ => rfl, fun n hn => ?_, (fun n o h => by cases h), fun p o h => ?_⟩, ⟨⟨rfl, (fun _ h => by cases h), .inr ⟨rfl, rfl, rfl, rfl⟩⟩, ⟨⟨13, 4, 4, 10, 0⟩, rfl, rfl, .mapInMap (.inr (.inl rfl)) (.inl rfl)⟩, fun _ => ⟨rfl, _, rfl, ⟨rfl, (fun _ h => by cases h), .inr ⟨rfl, rfl, rfl, rfl⟩⟩, ⟨2, 4, 8, 1, 0⟩, rfl, rfl, .plain (by decide)⟩⟩, rfl, (fun o h => by cases h)⟩
  · have h : 1 ≤ n := hn
    show (if n = 0 then _ else none) = none
    rw [if_neg (by omega)]
  · have h' : (if p = 7 then some 0 else none) = some o := h
    split at h'
    · cases h'; decide
    · cases h'

/-- A map in a map is made: descriptors 3 and 4 are the template's BTF and the template, 5 and 6 the map's. -/
example : (newMap exEnv exSpec (some 9) exSt).2 = .ok ⟨6, ⟨13, 4, 4, 10, 0⟩, some 9⟩ ∧
    (newMap exEnv exSpec (some 9) exSt).1.objs 4 = some ⟨true, ⟨13, 4, 4, 10, 0⟩, false, some 2, [(5, 6)], false⟩ ∧
    (newMap exEnv exSpec (some 9) exSt).1.files 9 = some 4 ∧
    (List.range 10).map (newMap exEnv exSpec (some 9) exSt).1.fds = [none, none, none, none, none, none, some 4, none, none, none] := by decide +kernel

/-- The pinned map doesn't suit. -/
example : (newMap exEnv exSpec (some 7) exSt).2 = .error .incompatible := by decide +kernel

end Ebpf.MapCreate
