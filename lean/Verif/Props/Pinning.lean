import Verif.Model.Pinning
/-!
# C52: pinning
-/
namespace Ebpf.Pin

@[grind =] theorem set_apply (f : Files) (p : Path) (o : Option Nat) (q : Path) : f.set p o q = if q = p then o else f q := rfl

/-- What a successful `Pin` did. -/
theorem sysPin_some (dir : Path → Dir) (pf rf : Bool) (cur new : Path) (o : Nat) (f f' : Files) (h : sysPin dir pf rf cur new o f = some f') :
    new ≠ [] ∧ (cur = new ∧ f' = f ∨ cur ≠ new ∧ dir new = .bpf ∧ f new = none ∧
      ((cur = [] ∨ f cur = none) ∧ f' = f.set new (some o) ∨ cur ≠ [] ∧ ∃ o', f cur = some o' ∧ f' = (f.set cur none).set new (some o'))) := by
  unfold sysPin at h
  split at h
  · cases h
  next h0 =>
  refine ⟨h0, ?_⟩
  split at h
  · next he => injection h with h; exact .inl ⟨he, h.symm⟩
  next hne =>
  have pin : objPin dir pf f new o = some f' → f new = none ∧ f' = f.set new (some o) := by
    intro h
    unfold objPin at h
    split at h
    · cases h
    split at h
    · cases h
    split at h
    · cases h
    · next hs => injection h with h; exact ⟨by simpa using hs, h.symm⟩
  split at h
  · cases h
  · cases h
  next hd =>
  refine .inr ⟨hne, hd, ?_⟩
  split at h
  · next hc =>
    obtain ⟨a, b⟩ := pin h
    exact ⟨a, .inl ⟨.inl hc, b⟩⟩
  · next hc =>
    unfold renameNoReplace at h
    cases hcur : f cur with
    | none =>
      simp only [hcur] at h
      obtain ⟨a, b⟩ := pin h
      exact ⟨a, .inl ⟨.inr rfl, b⟩⟩
    | some o' =>
      simp only [hcur, hd, reduceCtorEq, ite_false] at h
      cases rf with
      | true => simp at h
      | false =>
        cases hn : f new with
        | none => simp [hn] at h; exact ⟨rfl, .inr ⟨hc, o', rfl, h.symm⟩⟩
        | some x => simp [hn] at h

/-- C52: `Pin` never replaces, removes or changes what is at any path except the one recorded for the object. -/
theorem pin_never_overwrites (dir : Path → Dir) (s : State) (i : Nat) (h : Handle) (hi : s.handles i = some h) (p : Path) (pf rf : Bool) (q : Path) (o : Nat)
    (hq : s.files q = some o) (hc : q ≠ h.path) : (step dir s (.pin i p pf rf)).2.files q = some o := by
  simp only [step, hi]
  split
  · exact hq
  · next f hp =>
    obtain ⟨_, ⟨_, rfl⟩ | ⟨_, _, _, ⟨_, rfl⟩ | ⟨_, _, _, rfl⟩⟩⟩ := sysPin_some dir pf rf _ _ _ _ _ hp <;> simp only [State.setHandle] <;> grind

/-- C52: if there is something at the new path, `Pin` fails (unless it is the recorded path). -/
theorem pin_existing_fails (dir : Path → Dir) (s : State) (i : Nat) (h : Handle) (hi : s.handles i = some h) (p : Path) (pf rf : Bool) (o : Nat)
    (hq : s.files p = some o) (hc : p ≠ h.path) : step dir s (.pin i p pf rf) = (false, s) := by
  simp only [step, hi]
  split
  · rfl
  · next f hp =>
    have := sysPin_some dir pf rf _ _ _ _ _ hp
    grind

/-- C52: a failed call leaves the file system and what is recorded as they were. -/
theorem failed_unchanged (dir : Path → Dir) (s : State) (op : Op) (h : (step dir s op).1 = false) : (step dir s op).2 = s := by
  cases op <;> grind [step]

/-- C52: a successful `Pin` of an object whose recorded pin is there, or gone, leaves it pinned at the new path and not at the old one; all
other paths are as before. -/
theorem pin_ok (dir : Path → Dir) (s s' : State) (i : Nat) (h : Handle) (hi : s.handles i = some h) (p : Path) (pf rf : Bool)
    (hsync : h.path ≠ [] → s.files h.path = some h.obj ∨ s.files h.path = none ∧ h.path ≠ p) (hs : step dir s (.pin i p pf rf) = (true, s')) :
    s'.handles i = some { h with path := p } ∧ p ≠ [] ∧ s'.files p = some h.obj ∧ (h.path ≠ [] → h.path ≠ p → s'.files h.path = none) ∧
    ∀ q, q ≠ p → q ≠ h.path → s'.files q = s.files q := by
  simp only [step, hi] at hs
  split at hs
  · cases hs
  · next f hp =>
    simp only [Prod.mk.injEq, true_and] at hs
    subst hs
    obtain ⟨_, ⟨_, rfl⟩ | ⟨_, _, _, ⟨_, rfl⟩ | ⟨_, _, _, rfl⟩⟩⟩ := sysPin_some dir pf rf _ _ _ _ _ hp <;> simp only [State.setHandle] <;> grind

/-- C52: `Pin` works whenever it can: the directory is on a BPF file system, nothing is at the path, and the kernel has no other objection. -/
theorem pin_succeeds (dir : Path → Dir) (s : State) (i : Nat) (h : Handle) (hi : s.handles i = some h) (p : Path) (hp : p ≠ []) (hd : dir p = .bpf)
    (hf : s.files p = none) : (step dir s (.pin i p false false)).1 = true := by
  simp only [step, hi, sysPin, hp, hd, objPin, renameNoReplace]
  grind

/-- C52: a successful `Unpin` leaves nothing at the recorded path and touches nothing else; the object counts as unpinned. Unpinning an
unpinned object succeeds. -/
theorem unpin_ok (dir : Path → Dir) (s : State) (i : Nat) (h : Handle) (hi : s.handles i = some h) (fault : Bool) :
    (h.path = [] → (step dir s (.unpin i fault)).1 = true ∧ (step dir s (.unpin i fault)).2.files = s.files) ∧
    ((step dir s (.unpin i fault)).1 = true → (step dir s (.unpin i fault)).2.handles i = some { h with path := [] } ∧
      (h.path ≠ [] → (step dir s (.unpin i fault)).2.files h.path = none) ∧ ∀ q, q ≠ h.path → (step dir s (.unpin i fault)).2.files q = s.files q) := by
  simp only [step, hi, sysUnpin, remove, State.setHandle]
  by_cases h0 : h.path = []
  · simp [h0]
  · cases hf : s.files h.path <;> cases fault <;> simp [h0, hf, set_apply] <;> grind

/-- C52: `Unpin` works unless the kernel refuses to remove an existing pin; a pin that has vanished is no error. -/
theorem unpin_succeeds (dir : Path → Dir) (s : State) (i : Nat) (h : Handle) (hi : s.handles i = some h) (fault : Bool) :
    (step dir s (.unpin i fault)).1 = true ↔ (fault = true → h.path = [] ∨ s.files h.path = none) := by
  simp only [step, hi, sysUnpin, remove]
  by_cases h0 : h.path = []
  · simp [h0]
  · cases hf : s.files h.path <;> cases fault <;> simp [h0]

/-! ## Histories -/

/-- An operation of the process that pins, unpins or clones. -/
def Op.own : Op → Prop
  | .pin .. | .unpin .. | .clone .. => True
  | _ => False

/-- What is recorded is what is on the file system: each pinned handle has its object at its path, no two share a path, and everything else on
the file system was there from the start. -/
structure Sync (base : Files) (s : State) : Prop where
  there : ∀ i h, s.handles i = some h → h.path ≠ [] → s.files h.path = some h.obj
  single : ∀ i j h h', s.handles i = some h → s.handles j = some h' → h.path = h'.path → h.path ≠ [] → i = j
  rest : ∀ p o, s.files p = some o → base p = some o ∨ ∃ i h, s.handles i = some h ∧ h.path = p ∧ h.obj = o
  kept : ∀ p o, base p = some o → s.files p = some o
  fresh : ∀ i h, s.handles i = some h → h.path ≠ [] → base h.path = none
  noEmpty : s.files [] = none

theorem sync_setHandle (base : Files) (s : State) (i : Nat) (h : Handle) (hs : Sync base s) (hi : s.handles i = none) (hp : h.path = []) :
    Sync base (s.setHandle i h) := by
  obtain ⟨a, b, c, d, e, f⟩ := hs
  constructor <;> simp only [State.setHandle] <;> grind

/-- One step. -/
theorem sync_step (dir : Path → Dir) (base : Files) (s : State) (op : Op) (ho : op.own) (hs : Sync base s) : Sync base (step dir s op).2 := by
  have hs' := hs
  obtain ⟨a, b, c, d, e, f⟩ := hs
  cases op with
  | pin i p pf rf =>
    simp only [step]
    split
    · exact hs'
    · next h hi =>
      split
      · exact hs'
      · next g hg =>
        obtain ⟨p0, q⟩ := sysPin_some dir pf rf _ _ _ _ _ hg
        have hbase : h.path ≠ p → base p = none := by
          intro hne
          cases hb : base p with
          | none => rfl
          | some o => have := d p o hb; grind
        rcases q with ⟨rfl, rfl⟩ | ⟨hne, hd, hn, q⟩
        · constructor <;> simp only [State.setHandle] <;> grind
        · have e1 : g = (if h.path = [] then s.files else s.files.set h.path none).set p (some h.obj) := by
            rcases q with ⟨q1, q2⟩ | ⟨q1, o', q2, q3⟩
            · have : h.path = [] := by
                by_cases hp : h.path = []
                · exact hp
                · have := a i h hi hp; grind
              rw [if_pos this, q2]
            · have := a i h hi q1
              rw [if_neg q1, q3]; grind
          subst e1
          constructor <;> simp only [State.setHandle]
          · intro j k hk hkp
            by_cases hj : j = i
            · subst hj
              simp only [ite_true, Option.some.injEq] at hk
              subst hk
              simp [Files.set]
            · rw [if_neg hj] at hk
              have h1 := a j k hk hkp
              have h2 := fun e => hj (b j i k h hk hi e hkp)
              grind
          · intro j k h1 h2 e1 e2 e3 e4
            have key : ∀ j h1, s.handles j = some h1 → h1.path = p → False := by
              intro j h1 h2 h3
              have := a j h1 h2 (by rw [h3]; exact p0)
              rw [h3, hn] at this; cases this
            by_cases hj : j = i <;> by_cases hk : k = i
            · rw [hj, hk]
            · subst hj; rw [if_pos rfl] at e1; rw [if_neg hk] at e2
              injection e1 with e1; subst e1
              exact (key k h2 e2 e3.symm).elim
            · subst hk; rw [if_pos rfl] at e2; rw [if_neg hj] at e1
              injection e2 with e2; subst e2
              exact (key j h1 e1 e3).elim
            · rw [if_neg hj] at e1; rw [if_neg hk] at e2
              exact b j k h1 h2 e1 e2 e3 e4
          · intro r o hr
            by_cases hrp : r = p
            · subst hrp
              simp only [Files.set, ite_true, Option.some.injEq] at hr
              exact .inr ⟨i, { h with path := r }, by simp, rfl, hr⟩
            · have hr' : s.files r = some o ∧ (h.path ≠ [] → r ≠ h.path) := by
                simp only [Files.set, hrp, ite_false] at hr
                by_cases h0 : h.path = [] <;> simp only [h0, ite_true, ite_false] at hr <;> grind
              rcases c r o hr'.1 with h1 | ⟨j, k, k1, k2, k3⟩
              · exact .inl h1
              · refine .inr ⟨j, k, ?_, k2, k3⟩
                by_cases hj : j = i
                · subst hj
                  rw [hi] at k1; injection k1 with k1; subst k1
                  by_cases h0 : h.path = []
                  · rw [← k2, h0, f] at hr'; simp at hr'
                  · exact absurd k2.symm (hr'.2 h0)
                · rw [if_neg hj]; exact k1
          · intro r o hr
            have h1 := d r o hr
            have h2 := e i h hi
            grind
          · intro j k hk hkp
            by_cases hj : j = i
            · subst hj
              simp only [ite_true, Option.some.injEq] at hk
              subst hk
              exact hbase hne
            · rw [if_neg hj] at hk
              exact e j k hk hkp
          · grind
  | unpin i fault =>
    simp only [step]
    split
    · exact hs'
    · next h hi =>
      split
      · exact hs'
      · next g hg =>
        have e1 : h.path = [] ∧ g = s.files ∨ h.path ≠ [] ∧ g = s.files.set h.path none := by
          simp only [sysUnpin, remove] at hg
          by_cases h0 : h.path = []
          · rw [if_pos h0] at hg; injection hg with hg; exact .inl ⟨h0, hg.symm⟩
          · rw [if_neg h0, a i h hi h0] at hg
            refine .inr ⟨h0, ?_⟩
            cases fault <;> simp at hg
            exact hg.symm
        rcases e1 with ⟨h0, rfl⟩ | ⟨h0, rfl⟩
        · constructor <;> simp only [State.setHandle] <;> grind
        · constructor <;> simp only [State.setHandle]
          · intro j k hk hkp
            by_cases hj : j = i
            · subst hj
              simp only [ite_true, Option.some.injEq] at hk
              subst hk
              exact absurd rfl hkp
            · rw [if_neg hj] at hk
              have h1 := a j k hk hkp
              have h2 := fun e => hj (b j i k h hk hi e hkp)
              grind
          · grind
          · intro r o hr
            have hr' : s.files r = some o ∧ r ≠ h.path := by grind
            rcases c r o hr'.1 with h1 | ⟨j, k, k1, k2, k3⟩
            · exact .inl h1
            · refine .inr ⟨j, k, ?_, k2, k3⟩
              by_cases hj : j = i
              · subst hj
                rw [hi] at k1; injection k1 with k1; subst k1
                exact absurd k2.symm hr'.2
              · rw [if_neg hj]; exact k1
          · intro r o hr
            have h1 := d r o hr
            have h2 := e i h hi
            grind
          · grind
          · grind
  | clone i j =>
    simp only [step]
    split
    · next h hi hj => exact sync_setHandle base s j _ hs' hj rfl
    · exact hs'
  | _ => cases ho

/-- C52: as long as nobody else touches the file system, what is recorded is what is on the file system, after any history of `Pin`, `Unpin` and
`Clone` with any failures: each object handle has its one pin at its path, or none, and nothing else was touched. -/
theorem pins_in_sync_partial (dir : Path → Dir) (ops : List Op) (ho : ∀ op ∈ ops, op.own) (base : Files) (s : State) (hs : Sync base s) :
    Sync base (run dir s ops) := by
  induction ops generalizing s with
  | nil => exact hs
  | cons op ops ih => exact ih (fun o h => ho o (by simp [h])) _ (sync_step dir base s op (ho op (by simp)) hs)

/-- What C52 doesn't have: after someone else removed the pin, pinning to the same path reports success although the object isn't pinned. -/
theorem repin_same_path_lies (dir : Path → Dir) (s : State) (i : Nat) (h : Handle) (hi : s.handles i = some h) (hp : h.path ≠ []) (pf rf : Bool)
    (hgone : s.files h.path = none) : (step dir s (.pin i h.path pf rf)).1 = true ∧ (step dir s (.pin i h.path pf rf)).2.files h.path = none := by
  simp [step, hi, sysPin, hp, State.setHandle, hgone]

/-- If someone else replaced the pin, `Pin` moves their object to the new path and `Unpin` removes their pin; both report success. -/
theorem replaced_pin_is_moved (dir : Path → Dir) (s : State) (i : Nat) (h : Handle) (hi : s.handles i = some h) (hp : h.path ≠ []) (p : Path) (hpp : p ≠ [])
    (hne : h.path ≠ p) (hd : dir p = .bpf) (hf : s.files p = none) (o : Nat) (ho : s.files h.path = some o) :
    (step dir s (.pin i p false false)).1 = true ∧ (step dir s (.pin i p false false)).2.files p = some o ∧
    (step dir s (.unpin i false)).1 = true ∧ (step dir s (.unpin i false)).2.files h.path = none := by
  simp only [step, hi, sysPin, hpp, hne, hp, hd, renameNoReplace, ho, hf, State.setHandle, sysUnpin, remove]
  simp [Files.set]

/-! ## Examples -/

/-- Two handles of object 7. -/
def exState : State := ⟨fun p => if p = [9] then some 1 else none, fun i => if i ≤ 1 then some ⟨7, []⟩ else none⟩

example : Sync (fun p => if p = [9] then some 1 else none) exState := by
  constructor <;> simp only [exState] <;> grind

/-- Pin both, move the first one, fail to overwrite, unpin the second. -/
example : let s := run (fun _ => .bpf) exState [.pin 0 [1] false false, .pin 1 [2] false false, .pin 0 [3] false false, .pin 0 [9] false false, .unpin 1 false];
    s.files [1] = none ∧ s.files [2] = none ∧ s.files [3] = some 7 ∧ s.files [9] = some 1 ∧ s.handles 0 = some ⟨7, [3]⟩ ∧ s.handles 1 = some ⟨7, []⟩ := by
  decide

end Ebpf.Pin
