import Verif.Props.BtfFile
import Verif.Props.BtfTraversal
/-! # C26: inflating the types of a blob -/
namespace Ebpf.Btf
open BtfSpec
set_option linter.unusedSectionVars false

section tags
variable {R S : Type}

theorem map_modify' (f : Member R → Member R) (g : Member R → Member S) (f' : Member S → Member S) (h : ∀ m, g (f m) = f' (g m)) :
    ∀ (ms : List (Member R)) (i : Nat), (ms.modify i f).map g = (ms.map g).modify i f'
  | [], i => by cases i <;> rfl
  | m :: ms, 0 => by simp [h]
  | m :: ms, i + 1 => by simp [map_modify' f g f' h ms i]

/-- Attaching a tag does not look at references. -/
theorem applyTag_map (p : Option Nat) (n : Node R) (v : Bytes) (i : Int) (f : R → S) : applyTag p (n.map f) v i = (applyTag p n v i).map (Node.map f) := by
  cases n with
  | var nm t l ts => simp only [Node.map, applyTag]; split <;> rfl
  | typedef nm t ts => simp only [Node.map, applyTag]; split <;> rfl
  | struct nm s ms ts =>
    simp only [Node.map, applyTag, List.length_map]
    split
    · split
      · rfl
      · simp only [Option.map_some, Node.map]
        rw [map_modify' _ _ (fun m => { m with tags := m.tags ++ [v] }) (fun m => rfl)]
    · split <;> rfl
  | union nm s ms ts =>
    simp only [Node.map, applyTag, List.length_map]
    split
    · split
      · rfl
      · simp only [Option.map_some, Node.map]
        rw [map_modify' _ _ (fun m => { m with tags := m.tags ++ [v] }) (fun m => rfl)]
    · split <;> rfl
  | func nm t l ts pts =>
    simp only [Node.map, applyTag]
    cases p with
    | none => rfl
    | some k =>
      dsimp only
      generalize (if pts.length = 0 then List.replicate k [] else pts) = q
      split
      · split <;> rfl
      · split <;> rfl
  | _ => rfl

theorem map_type_modify (v : Bytes) : ∀ (ms : List (Member R)) (i : Nat), (ms.modify i fun m => { m with tags := m.tags ++ [v] }).map (·.type) = ms.map (·.type)
  | [], i => by cases i <;> rfl
  | m :: ms, 0 => by simp
  | m :: ms, i + 1 => by simp [map_type_modify v ms i]

/-- Attaching a tag does not change references. -/
theorem applyTag_keep (p : Option Nat) (n n' : Node R) (v : Bytes) (i : Int) (h : applyTag p n v i = some n') :
    fixOrder n' = fixOrder n ∧ (∀ t, n' ≠ .cycle t) ∧
    (∀ nm t l ts pts, n' = .func nm t l ts pts → ∃ ts' pts', n = .func nm t l ts' pts') ∧ (∀ nm t l ts pts, n = .func nm t l ts pts → p.isSome) := by
  cases n with
  | var nm t l ts => simp only [applyTag] at h; split at h <;> cases h; exact ⟨rfl, by simp, by simp, by simp⟩
  | typedef nm t ts => simp only [applyTag] at h; split at h <;> cases h; exact ⟨rfl, by simp, by simp, by simp⟩
  | struct nm s ms ts =>
    simp only [applyTag] at h
    split at h
    · split at h <;> cases h
      exact ⟨map_type_modify v ms _, by simp, by simp, by simp⟩
    · split at h <;> cases h; exact ⟨rfl, by simp, by simp, by simp⟩
  | union nm s ms ts =>
    simp only [applyTag] at h
    split at h
    · split at h <;> cases h
      exact ⟨map_type_modify v ms _, by simp, by simp, by simp⟩
    · split at h <;> cases h; exact ⟨rfl, by simp, by simp, by simp⟩
  | func nm t l ts pts =>
    cases p with
    | none => simp only [applyTag] at h; cases h
    | some k =>
      simp only [applyTag] at h
      generalize (if pts.length = 0 then List.replicate k [] else pts) = q at h
      split at h
      · split at h <;> cases h
        exact ⟨rfl, by simp, by rintro _ _ _ _ _ ⟨⟩; exact ⟨_, _, rfl⟩, by simp⟩
      · split at h <;> cases h
        exact ⟨rfl, by simp, by rintro _ _ _ _ _ ⟨⟩; exact ⟨_, _, rfl⟩, by simp⟩
  | _ => simp only [applyTag] at h; cases h
end tags

/-- Filling in the addresses of the references gives the struct over addresses. -/
theorem fill_map (n : Node ID) (f : ID → Nat) (hc : ∀ t, n ≠ .cycle t) : fill n ((fixOrder n).map f) = some (n.map f) := by
  have zip : ∀ {α β : Type} (l : List α) (ty : α → ID) (g : α → Nat → β), l.zipWith g ((l.map ty).map f) = l.map fun x => g x (f (ty x)) := by
    intro α β l ty g
    induction l with
    | nil => rfl
    | cons x l ih => simp only [List.map_cons, List.zipWith_cons_cons, ih]
  cases n with
  | cycle t => exact absurd rfl (hc t)
  | struct nm s ms ts => simp only [fill, fixOrder, Node.map, zip]
  | union nm s ms ts => simp only [fill, fixOrder, Node.map, zip]
  | datasec nm s vs => simp only [fill, fixOrder, Node.map, zip]
  | funcProto r ps =>
    have : ∀ (ps : List (FuncParam ID)) (x : List Nat), ps.zipWith (fun p a => (⟨p.name, a⟩ : FuncParam Nat)) ((ps.map (·.type)).map f ++ x) = ps.map fun p => ⟨p.name, f p.type⟩ := by
      intro ps x
      induction ps with
      | nil => cases x <;> rfl
      | cons p ps ih => simp only [List.map_cons, List.cons_append, List.zipWith_cons_cons, ih]
    simp only [fill, fixOrder, Node.map, List.map_append, this]
    simp
  | _ => rfl

section inflate
variable (nodes : List (Node ID))

/-- The struct with a given ID. -/
def nodeAt (id : ID) : Option (Node ID) := if id = 0 then none else nodes[id.toNat - 1]?

/-- The number of parameters of the prototype of a function. -/
def protoAt : Node ID → Option Nat
  | .func _ t _ _ _ =>
    match nodeAt nodes t with
    | some (.funcProto _ ps) => some ps.length
    | _ => none
  | _ => none

/-- Attach the tag with ID `tid`. -/
def tagStep (n : Node ID) (tid : ID) : Option (Node ID) :=
  match nodeAt nodes tid with
  | some (.declTag _ v i) => applyTag (protoAt nodes n) n v i
  | _ => none

/-- The type with its tags. -/
def final (id : ID) : Option (Node ID) := (nodeAt nodes id).bind fun n => (tagIDsFrom 1 nodes id).foldlM (tagStep nodes) n

/-- The types inflated for a type. -/
def deps (id : ID) : List ID :=
  match nodeAt nodes id with
  | none => []
  | some n => fixOrder n ++ tagIDsFrom 1 nodes id

/-- What makes a blob readable as a whole. -/
structure Readable : Prop where
  closed : ∀ id n, nodeAt nodes id = some n → ∀ t ∈ fixOrder n, t.toNat ≤ nodes.length
  nocycle : ∀ id n, nodeAt nodes id = some n → ∀ t, n ≠ .cycle t
  fin : ∀ id n, nodeAt nodes id = some n → (final nodes id).isSome
  acyc : ∀ id nm t l ts pts, nodeAt nodes id = some (.func nm t l ts pts) → tagIDsFrom 1 nodes id ≠ [] → ¬ Reach (deps nodes) t id

variable {nodes}

theorem tagIDsFrom_mem : ∀ (ns : List (Node ID)) (k : Nat) (id tid : ID), tid ∈ tagIDsFrom (BitVec.ofNat 32 k) ns id →
    ∃ (i : Nat) (v : Bytes) (x : Int), ns[i]? = some (.declTag id v x) ∧ tid = BitVec.ofNat 32 (k + i)
  | [], k, id, tid, h => by simp [tagIDsFrom] at h
  | n :: ns, k, id, tid, h => by
    have rec_ : tid ∈ tagIDsFrom (BitVec.ofNat 32 k + 1) ns id → ∃ (i : Nat) (v : Bytes) (x : Int), (n :: ns)[i]? = some (.declTag id v x) ∧ tid = BitVec.ofNat 32 (k + i) := by
      intro h
      rw [show BitVec.ofNat 32 k + 1 = BitVec.ofNat 32 (k + 1) from (BitVec.ofNat_add k 1).symm] at h
      obtain ⟨i, v, x, h1, h2⟩ := tagIDsFrom_mem ns (k + 1) id tid h
      exact ⟨i + 1, v, x, by simpa using h1, by rw [h2]; congr 1; omega⟩
    cases n with
    | declTag t v x =>
      simp only [tagIDsFrom] at h
      split at h
      · rename_i ht
        simp only [List.mem_cons] at h
        rcases h with rfl | h
        · exact ⟨0, v, x, by simp [ht], by simp⟩
        · exact rec_ h
      · exact rec_ h
    | _ => exact rec_ h

theorem nodeAt_ofNat (hN : nodes.length < 2 ^ 32) (i : Nat) (n : Node ID) (h : nodes[i]? = some n) : nodeAt nodes (BitVec.ofNat 32 (i + 1)) = some n := by
  have hi := getElem?_lt h
  have : (BitVec.ofNat 32 (i + 1)).toNat = i + 1 := by rw [BitVec.toNat_ofNat, Nat.mod_eq_of_lt (by omega)]
  unfold nodeAt
  rw [if_neg (by intro e; rw [e] at this; exact absurd this (by simp)), this]
  simpa using h

theorem tagIDs_node (hN : nodes.length < 2 ^ 32) (id tid : ID) (h : tid ∈ tagIDsFrom 1 nodes id) : ∃ v x, nodeAt nodes tid = some (.declTag id v x) := by
  obtain ⟨i, v, x, h1, rfl⟩ := tagIDsFrom_mem nodes 1 id tid h
  exact ⟨v, x, by rw [Nat.add_comm]; exact nodeAt_ofNat hN i _ h1⟩

theorem nodeAt_bound (id : ID) (n : Node ID) (h : nodeAt nodes id = some n) : id ≠ 0 ∧ id.toNat ≤ nodes.length := by
  unfold nodeAt at h
  split at h
  · cases h
  · rename_i hne
    have := getElem?_lt h
    refine ⟨hne, by omega⟩

theorem nodeAt_some (id : ID) (h0 : id ≠ 0) (h : id.toNat ≤ nodes.length) : ∃ n, nodeAt nodes id = some n := by
  have hp : 0 < id.toNat := by
    rcases Nat.eq_zero_or_pos id.toNat with h | h
    · exact absurd (BitVec.eq_of_toNat_eq (by simpa using h)) h0
    · exact h
  unfold nodeAt
  rw [if_neg h0]
  exact ⟨_, List.getElem?_eq_getElem (by omega)⟩

theorem record_nodeAt {d : Dec} (hd : Describes d nodes) (id : ID) (n : Node ID) (h : nodeAt nodes id = some n) :
    d.record id = some ⟨earlyOf n, fixOrder n, some n⟩ := by
  obtain ⟨h0, hb⟩ := nodeAt_bound id n h
  obtain ⟨_, hs⟩ := nodeAt_some id h0 hb
  have hp : 0 < id.toNat := by
    rcases Nat.eq_zero_or_pos id.toNat with h | h
    · exact absurd (BitVec.eq_of_toNat_eq (by simpa using h)) h0
    · exact h
  unfold nodeAt at h
  rw [if_neg h0] at h
  have := hd.at_ _ _ h
  rwa [show BitVec.ofNat 32 (id.toNat - 1 + 1) = id by rw [Nat.sub_add_cancel hp]; simp] at this

/-- The address of a type. -/
def addr (s : DState) (id : ID) : Nat := if id = 0 then 0 else (s.types.lookup id).getD 0

/-- The type has been inflated, or is being inflated. -/
def Known (s : DState) (id : ID) : Prop := id = 0 ∨ (s.types.lookup id).isSome

variable (nodes) in
/-- The state of the decoder while the types `S` are being inflated. -/
structure Inv (S : List ID) (s : DState) : Prop where
  void : s.heap[0]? = some .void
  bound : ∀ id a, s.types.lookup id = some a → 0 < a ∧ a < s.heap.length ∧ id ≠ 0 ∧ id.toNat ≤ nodes.length
  inj : ∀ id id' a, s.types.lookup id = some a → s.types.lookup id' = some a → id = id'
  done : ∀ id a, id ∉ S → s.types.lookup id = some a →
    ∃ F, final nodes id = some F ∧ s.heap[a]? = some (F.map (addr s)) ∧ ∀ t ∈ deps nodes id, Known s t
  prog : ∀ id ∈ S, (s.types.lookup id).isSome
  shape : ∀ id a x v i, s.types.lookup id = some a → nodeAt nodes id = some (.declTag x v i) → ∃ y, s.heap[a]? = some (.declTag y v i)

/-- What changes between two states: nothing known to the caller. -/
structure Frame (s s' : DState) : Prop where
  mono : ∀ id a, s.types.lookup id = some a → s'.types.lookup id = some a
  keep : ∀ i, i < s.heap.length → s'.heap[i]? = s.heap[i]?
  grow : s.heap.length ≤ s'.heap.length

theorem Frame.refl (s : DState) : Frame s s := ⟨fun _ _ h => h, fun _ _ => rfl, Nat.le_refl _⟩
theorem Frame.trans {a b c : DState} (h : Frame a b) (h' : Frame b c) : Frame a c :=
  ⟨fun i x e => h'.mono i x (h.mono i x e), fun i hi => (h'.keep i (Nat.lt_of_lt_of_le hi h.grow)).trans (h.keep i hi), Nat.le_trans h.grow h'.grow⟩

theorem Frame.known {s s' : DState} (h : Frame s s') {t : ID} (k : Known s t) : Known s' t := by
  rcases k with k | k
  · exact .inl k
  · obtain ⟨a, ha⟩ := Option.isSome_iff_exists.1 k
    right; rw [h.mono _ _ ha]; rfl

theorem addr_mono {s s' : DState} (h : ∀ id a, s.types.lookup id = some a → s'.types.lookup id = some a) {t : ID} (k : Known s t) : addr s' t = addr s t := by
  unfold addr
  split
  · rfl
  · rename_i h0
    obtain ⟨a, ha⟩ := Option.isSome_iff_exists.1 (k.resolve_left h0)
    rw [ha, h _ _ ha]

/-- Types not inflated yet. -/
def missing (N : Nat) (s : DState) : Nat := (List.range N).countP fun i => (s.types.lookup (BitVec.ofNat 32 (i + 1))).isNone

theorem countP_lt {α : Type} (p q : α → Bool) : ∀ (l : List α), (∀ x ∈ l, q x = true → p x = true) → (∃ x ∈ l, p x = true ∧ q x = false) →
    l.countP q < l.countP p
  | [], _, h => by simp at h
  | y :: l, hle, h => by
    have hle' : l.countP q ≤ l.countP p := List.countP_mono_left fun x hx => hle x (by simp [hx])
    rw [List.countP_cons, List.countP_cons]
    obtain ⟨x, hx, hp, hq⟩ := h
    simp only [List.mem_cons] at hx
    rcases hx with rfl | hx
    · rw [if_pos hp, if_neg (by simp [hq])]; omega
    · have := countP_lt p q l (fun x hx => hle x (by simp [hx])) ⟨x, hx, hp, hq⟩
      have h2 := hle y (by simp)
      by_cases hy : q y = true
      · rw [if_pos hy, if_pos (h2 hy)]; omega
      · rw [if_neg hy]; split <;> omega

theorem missing_mono (N : Nat) {s s' : DState} (h : ∀ id a, s.types.lookup id = some a → s'.types.lookup id = some a) : missing N s' ≤ missing N s := by
  apply List.countP_mono_left
  intro i _ hi
  rw [Option.isNone_iff_eq_none] at hi ⊢
  cases hx : s.types.lookup (BitVec.ofNat 32 (i + 1)) with
  | none => rfl
  | some a => rw [h _ _ hx] at hi; cases hi

theorem missing_lt (N : Nat) {s s' : DState} (h : ∀ id a, s.types.lookup id = some a → s'.types.lookup id = some a) (id : ID) (h0 : id ≠ 0) (hN : id.toNat ≤ N)
    (hn : s.types.lookup id = none) (hs : (s'.types.lookup id).isSome) : missing N s' < missing N s := by
  have hp : 0 < id.toNat := by
    rcases Nat.eq_zero_or_pos id.toNat with h | h
    · exact absurd (BitVec.eq_of_toNat_eq (by simpa using h)) h0
    · exact h
  have hid : BitVec.ofNat 32 (id.toNat - 1 + 1) = id := by rw [Nat.sub_add_cancel hp]; simp
  apply countP_lt
  · intro i _ hi
    rw [Option.isNone_iff_eq_none] at hi ⊢
    cases hx : s.types.lookup (BitVec.ofNat 32 (i + 1)) with
    | none => rfl
    | some a => rw [h _ _ hx] at hi; cases hi
  · refine ⟨id.toNat - 1, by simp; omega, ?_, ?_⟩
    · rw [hid, hn]; rfl
    · rw [hid]
      cases hx : s'.types.lookup id with
      | none => rw [hx] at hs; cases hs
      | some a => rfl

/-- A successful call of `inflateType`. -/
structure Inflated (nodes : List (Node ID)) (S : List ID) (s : DState) (id : ID) (s' : DState) (a : Nat) : Prop where
  inv : Inv nodes S s'
  frame : Frame s s'
  known : Known s' id
  addr_ : a = addr s' id

/-- What is to be shown of the recursive call. -/
def Works (nodes : List (Node ID)) (fuel : Nat) (f : DState → ID → DState × Option Nat) : Prop :=
  ∀ S s id, Inv nodes S s → (∀ x ∈ S, Reach (deps nodes) x id) → id.toNat ≤ nodes.length → missing nodes.length s < fuel →
    ∃ s' a, f s id = (s', some a) ∧ Inflated nodes S s id s' a

theorem inflateAll_works (fuel : Nat) (f : DState → ID → DState × Option Nat) (hf : Works nodes fuel f) (S : List ID) : ∀ (ids : List ID) (s : DState), Inv nodes S s →
    (∀ x ∈ S, ∀ id ∈ ids, Reach (deps nodes) x id) → (∀ id ∈ ids, id.toNat ≤ nodes.length) → missing nodes.length s < fuel →
    ∃ s', inflateAll f s ids = (s', some (ids.map (addr s'))) ∧ Inv nodes S s' ∧ Frame s s' ∧ ∀ id ∈ ids, Known s' id
  | [], s, h, _, _, _ => ⟨s, rfl, h, Frame.refl s, by simp⟩
  | id :: ids, s, h, hr, hb, hm => by
    obtain ⟨s1, a, h1, i1⟩ := hf S s id h (fun x hx => hr x hx id (by simp)) (hb id (by simp)) hm
    obtain ⟨s2, h2, i2, f2, k2⟩ := inflateAll_works fuel f hf S ids s1 i1.inv (fun x hx id hid => hr x hx id (by simp [hid])) (fun id hid => hb id (by simp [hid]))
      (Nat.lt_of_le_of_lt (missing_mono _ i1.frame.mono) hm)
    refine ⟨s2, ?_, i2, i1.frame.trans f2, ?_⟩
    · simp only [inflateAll, h1, h2, List.map_cons]
      rw [i1.addr_, addr_mono f2.mono i1.known]
    · intro x hx
      simp only [List.mem_cons] at hx
      rcases hx with rfl | hx
      · exact f2.known i1.known
      · exact k2 x hx

theorem fold_funcProto (r : ID) (ps : List (FuncParam ID)) (tids : List ID) (F : Node ID) (h : tids.foldlM (tagStep nodes) (.funcProto r ps) = some F) :
    F = .funcProto r ps := by
  cases tids with
  | nil => simp at h; exact h.symm
  | cons t ts =>
    rw [List.foldlM_cons] at h
    simp only [tagStep] at h
    split at h <;> simp [applyTag] at h

theorem fold_declTag (x : ID) (v : Bytes) (i : Int) (tids : List ID) (F : Node ID) (h : tids.foldlM (tagStep nodes) (.declTag x v i) = some F) :
    F = .declTag x v i := by
  cases tids with
  | nil => simp at h; exact h.symm
  | cons t ts =>
    rw [List.foldlM_cons] at h
    simp only [tagStep] at h
    split at h <;> simp [applyTag] at h

/-- Writing to the object of a type in progress. -/
theorem Inv.set {S : List ID} {s : DState} (h : Inv nodes S s) (id : ID) (hid : id ∈ S) (a : Nat) (ha : s.types.lookup id = some a) (n : Node Nat)
    (hn : ∀ x v i, nodeAt nodes id = some (.declTag x v i) → ∃ y, n = .declTag y v i) : Inv nodes S (s.set a n) where
  void := by
    have := (h.bound id a ha).1
    simp only [DState.set]
    rw [List.getElem?_set_ne (by omega)]; exact h.void
  bound := by simpa [DState.set] using h.bound
  inj := h.inj
  done := by
    intro i b hi hb
    obtain ⟨F, h1, h2, h3⟩ := h.done i b hi hb
    refine ⟨F, h1, ?_, h3⟩
    have : a ≠ b := by rintro rfl; exact hi (h.inj _ _ _ hb ha ▸ hid)
    simp only [DState.set]
    rw [List.getElem?_set_ne this]; exact h2
  prog := h.prog
  shape := by
    intro i b x v k hb hk
    simp only [DState.set]
    by_cases he : a = b
    · subst he
      have := h.inj _ _ _ hb ha
      subst this
      obtain ⟨y, rfl⟩ := hn x v k hk
      exact ⟨y, by rw [List.getElem?_set_self (h.bound _ _ ha).2.1]⟩
    · rw [List.getElem?_set_ne he]; exact h.shape i b x v k hb hk

theorem applyTags_works (hr : Readable nodes) (hN : nodes.length < 2 ^ 32) (fuel : Nat) (f : DState → ID → DState × Option Nat) (hf : Works nodes fuel f) (S : List ID) (id : ID) (a : Nat)
    (hS : ∀ x ∈ id :: S, Reach (deps nodes) x id) (n : Node ID) (hnode : nodeAt nodes id = some n) (F : Node ID) :
    ∀ (tids : List ID) (m : Node ID) (s : DState), Inv nodes (id :: S) s → s.types.lookup id = some a → s.heap[a]? = some (m.map (addr s)) →
      (∀ t ∈ fixOrder m, Known s t) → (∀ t, m ≠ .cycle t) → (∀ nm t l ts pts, m = .func nm t l ts pts → ∃ ts' pts', n = .func nm t l ts' pts') →
      tids.foldlM (tagStep nodes) m = some F → (∀ t ∈ tids, t ∈ tagIDsFrom 1 nodes id) → missing nodes.length s < fuel →
      ∃ s', applyTags f a s tids = (s', true) ∧ Inv nodes (id :: S) s' ∧ s'.heap[a]? = some (F.map (addr s')) ∧ (∀ t ∈ tids, Known s' t) ∧
        (∀ i b, s.types.lookup i = some b → s'.types.lookup i = some b) ∧ (∀ i, i < s.heap.length → i ≠ a → s'.heap[i]? = s.heap[i]?) ∧ s.heap.length ≤ s'.heap.length
  | [], m, s, hi, ha, hh, hk, hc, hfun, hfold, _, _ => by
    simp at hfold; subst hfold
    exact ⟨s, rfl, hi, hh, by simp, fun _ _ h => h, fun _ _ _ => rfl, Nat.le_refl _⟩
  | tid :: tids, m, s, hi, ha, hh, hk, hc, hfun, hfold, hmem, hm => by
    rw [List.foldlM_cons] at hfold
    cases hstep : tagStep nodes m tid with
    | none => rw [hstep] at hfold; cases hfold
    | some m' =>
      rw [hstep] at hfold
      replace hfold : tids.foldlM (tagStep nodes) m' = some F := hfold
      have htid := hmem tid (by simp)
      obtain ⟨v, x, hnode'⟩ := tagIDs_node hN id tid htid
      have hdep : tid ∈ deps nodes id := by unfold deps; rw [hnode]; exact List.mem_append_right _ htid
      obtain ⟨s1, ta, h1, i1⟩ := hf (id :: S) s tid hi (fun y hy => Reach.trans _ (hS y hy) (.step hdep (.refl _))) (nodeAt_bound _ _ hnode').2 hm
      have hta : s1.types.lookup tid = some ta := by
        have h0 := (nodeAt_bound _ _ hnode').1
        obtain ⟨b, hb⟩ := Option.isSome_iff_exists.1 (i1.known.resolve_left h0)
        rw [i1.addr_, addr, if_neg h0, hb]; rfl
      obtain ⟨y, hy⟩ := i1.inv.shape _ _ _ _ _ hta hnode'
      have ha1 := i1.frame.mono _ _ ha
      have hlt := (hi.bound _ _ ha).2.1
      have hmap : m.map (addr s) = m.map (addr s1) := (map_congr m _ _ (fun t ht => addr_mono i1.frame.mono (hk t ht)) hc).symm
      have hh1 : s1.heap[a]? = some (m.map (addr s1)) := by rw [i1.frame.keep a hlt, hh, hmap]
      simp only [tagStep, hnode'] at hstep
      obtain ⟨hfix, hcyc', hfun', hp⟩ := applyTag_keep _ _ _ _ _ hstep
      -- the prototype of a function is complete
      have hproto : protoOf s1 (m.map (addr s1)) = protoAt nodes m := by
        cases m with
        | func nm t l ts pts =>
          have hsome := hp _ _ _ _ _ rfl
          simp only [Node.map, protoOf, protoAt] at hsome ⊢
          cases hnt : nodeAt nodes t with
          | none => rw [hnt] at hsome; cases hsome
          | some nt =>
            cases nt with
            | funcProto r ps =>
              obtain ⟨ts', pts', hn'⟩ := hfun _ _ _ _ _ rfl
              subst hn'
              have hnot : t ∉ id :: S := fun hin => hr.acyc id _ t _ _ _ hnode (by intro e; rw [e] at htid; cases htid) (hS t hin)
              have h0 := (nodeAt_bound _ _ hnt).1
              obtain ⟨b, hb⟩ := Option.isSome_iff_exists.1 ((i1.frame.known (hk t (by simp [fixOrder]))).resolve_left h0)
              obtain ⟨G, g1, g2, _⟩ := i1.inv.done t b hnot hb
              have : G = .funcProto r ps := by
                unfold final at g1; rw [hnt] at g1
                exact fold_funcProto _ _ _ _ g1
              have hadr : addr s1 t = b := by rw [addr, if_neg h0, hb]; rfl
              rw [hadr, g2, this]
              simp [Node.map]
            | _ => rw [hnt] at hsome; cases hsome
        | _ => rfl
      have hinv : Inv nodes (id :: S) (s1.set a (m'.map (addr s1))) := by
        apply i1.inv.set id (by simp) a ha1
        intro x' v' i' hd
        rw [hnode] at hd
        cases hd
        -- a tag has no tags
        obtain ⟨G, hG⟩ := Option.isSome_iff_exists.1 (hr.fin id _ hnode)
        exfalso
        have : tagIDsFrom 1 nodes id ≠ [] := by intro e; rw [e] at htid; cases htid
        unfold final at hG; rw [hnode] at hG
        cases hl : tagIDsFrom 1 nodes id with
        | nil => exact this hl
        | cons q qs =>
          simp only [Option.bind_some, hl, List.foldlM_cons] at hG
          simp only [tagStep] at hG
          split at hG <;> simp [applyTag] at hG
      have hset : (s1.set a (m'.map (addr s1))).heap[a]? = some (m'.map (addr (s1.set a (m'.map (addr s1))))) := by
        have : a < s1.heap.length := (i1.inv.bound _ _ ha1).2.1
        simp only [DState.set]
        rw [List.getElem?_set_self this]; rfl
      obtain ⟨s', q1, q2, q3, q4, q5, q6, q7⟩ := applyTags_works hr hN fuel f hf S id a hS n hnode F tids m' (s1.set a (m'.map (addr s1))) hinv ha1 hset
        (by rw [hfix]; exact fun t ht => i1.frame.known (hk t ht)) hcyc'
        (fun nm t l ts pts e => by
          obtain ⟨ts', pts', e'⟩ := hfun' _ _ _ _ _ e
          exact hfun _ _ _ _ _ e')
        hfold (fun t ht => hmem t (by simp [ht])) (Nat.lt_of_le_of_lt (missing_mono _ i1.frame.mono) hm)
      refine ⟨s', ?_, q2, q3, ?_, ?_, ?_, ?_⟩
      · simp only [applyTags, h1, hy, hh1]
        rw [hproto, applyTag_map, hstep]
        exact q1
      · intro t ht
        simp only [List.mem_cons] at ht
        rcases ht with rfl | ht
        · rcases i1.known with k | k
          · exact .inl k
          · obtain ⟨b, hb⟩ := Option.isSome_iff_exists.1 k
            right; rw [q5 _ _ hb]; rfl
        · exact q4 t ht
      · exact fun i b h => q5 i b (i1.frame.mono i b h)
      · intro i hil hne
        have := i1.frame.grow
        rw [q6 i (by simp only [DState.set, List.length_set]; omega) hne]
        simp only [DState.set]
        rw [List.getElem?_set_ne (Ne.symm hne), i1.frame.keep i hil]
      · have := i1.frame.grow
        simp only [DState.set, List.length_set] at q7
        omega

/-- Inflating a type of a readable blob works. -/
theorem inflate_works {d : Dec} (hd : Describes d nodes) (hr : Readable nodes) : ∀ fuel, Works nodes fuel (d.inflate fuel) := by
  intro fuel
  induction fuel with
  | zero => intro S s id _ _ _ h; omega
  | succ fuel ih =>
    intro S s id hi hS hb hm
    unfold Dec.inflate
    by_cases h0 : id = 0
    · rw [if_pos h0]
      exact ⟨s, 0, rfl, hi, Frame.refl s, .inl h0, by rw [addr, if_pos h0]⟩
    rw [if_neg h0]
    cases hl : s.types.lookup id with
    | some a => exact ⟨s, a, rfl, hi, Frame.refl s, .inr (by rw [hl]; rfl), by rw [addr, if_neg h0, hl]; rfl⟩
    | none =>
      obtain ⟨n, hnode⟩ := nodeAt_some (nodes := nodes) id h0 hb
      rw [record_nodeAt hd id n hnode]
      dsimp only
      have hnS : id ∉ S := fun h => by have := hi.prog id h; rw [hl] at this; cases this
      generalize hs1 : (⟨s.heap ++ [earlyOf n], (id, s.heap.length) :: s.types⟩ : DState) = s1
      have hlook : ∀ i, s1.types.lookup i = if i = id then some s.heap.length else s.types.lookup i := by
        intro i
        rw [← hs1]
        show List.lookup i ((id, s.heap.length) :: s.types) = _
        rw [List.lookup_cons]
        by_cases h : i = id
        · simp [h]
        · simp [h, beq_false_of_ne h]
      have hheap : ∀ i, i < s.heap.length → s1.heap[i]? = s.heap[i]? := by
        intro i h; rw [← hs1]; exact List.getElem?_append_left h
      have hself : s1.heap[s.heap.length]? = some (earlyOf n) := by rw [← hs1]; simp
      have hlen1 : s1.heap.length = s.heap.length + 1 := by rw [← hs1]; simp
      have f1 : Frame s s1 := by
        refine ⟨?_, hheap, by omega⟩
        intro i a h
        rw [hlook, if_neg (by rintro rfl; rw [hl] at h; cases h)]; exact h
      have hvoidlt : 0 < s.heap.length := getElem?_lt hi.void
      have inv1 : Inv nodes (id :: S) s1 := by
        constructor
        · rw [hheap 0 hvoidlt]; exact hi.void
        · intro i a h
          rw [hlook] at h
          split at h
          · rename_i he; cases h; subst he; exact ⟨hvoidlt, by omega, h0, hb⟩
          · obtain ⟨b1, b2, b3⟩ := hi.bound i a h
            exact ⟨b1, by omega, b3⟩
        · intro i j a h h'
          rw [hlook] at h h'
          split at h <;> split at h'
          · rename_i e e'; rw [e, e']
          · cases h; have := (hi.bound _ _ h').2.1; omega
          · cases h'; have := (hi.bound _ _ h).2.1; omega
          · exact hi.inj _ _ _ h h'
        · intro i a hni h
          simp only [List.mem_cons, not_or] at hni
          rw [hlook, if_neg hni.1] at h
          obtain ⟨F, h1, h2, h3⟩ := hi.done i a hni.2 h
          refine ⟨F, h1, ?_, fun t ht => f1.known (h3 t ht)⟩
          rw [hheap a (hi.bound _ _ h).2.1, h2]
          unfold final at h1
          cases hni' : nodeAt nodes i with
          | none => rw [hni'] at h1; cases h1
          | some m =>
            rw [hni'] at h1
            have key : ∀ (tids : List ID) (m G : Node ID), (∀ t, m ≠ .cycle t) → tids.foldlM (tagStep nodes) m = some G → fixOrder G = fixOrder m ∧ ∀ t, G ≠ .cycle t := by
              intro tids
              induction tids with
              | nil => intro m G hc h; simp at h; subst h; exact ⟨rfl, hc⟩
              | cons t ts ih2 =>
                intro m G hc h
                rw [List.foldlM_cons] at h
                cases hq : tagStep nodes m t with
                | none => rw [hq] at h; cases h
                | some m2 =>
                  rw [hq] at h
                  have hq' := hq
                  simp only [tagStep] at hq
                  split at hq
                  · obtain ⟨k1, k2, _⟩ := applyTag_keep _ _ _ _ _ hq
                    obtain ⟨k3, k4⟩ := ih2 m2 G k2 h
                    exact ⟨k3.trans k1, k4⟩
                  · cases hq
            obtain ⟨k1, k2⟩ := key _ _ _ (hr.nocycle _ _ hni') h1
            rw [map_congr F (addr s1) (addr s) ?_ k2]
            intro t ht
            apply addr_mono f1.mono
            apply h3
            unfold deps
            rw [hni']
            exact List.mem_append_left _ (k1 ▸ ht)
        · intro i hin
          rw [hlook]
          simp only [List.mem_cons] at hin
          split
          · rfl
          · rename_i hne; exact hi.prog i (hin.resolve_left hne)
        · intro i a x v k h hk
          rw [hlook] at h
          split at h
          · rename_i he; cases h; subst he
            rw [hnode] at hk; cases hk
            exact ⟨0, by rw [hself]; rfl⟩
          · rw [hheap a (hi.bound _ _ h).2.1]
            exact hi.shape i a x v k h hk
      have hk1 : s1.types.lookup id = some s.heap.length := by rw [hlook, if_pos rfl]
      have hmis : missing nodes.length s1 < fuel := by
        have := missing_lt nodes.length f1.mono id h0 hb hl (by rw [hk1]; rfl)
        omega
      have hreach : ∀ x ∈ id :: S, Reach (deps nodes) x id := by
        intro x hx
        simp only [List.mem_cons] at hx
        rcases hx with rfl | hx
        · exact .refl _
        · exact hS x hx
      have hdeps : ∀ t ∈ fixOrder n, t ∈ deps nodes id := by intro t ht; unfold deps; rw [hnode]; simp [ht]
      obtain ⟨s2, e2, inv2, f2, k2⟩ := inflateAll_works fuel _ ih (id :: S) (fixOrder n) s1 inv1
        (fun x hx t ht => Reach.trans _ (hreach x hx) (.step (hdeps t ht) (.refl _))) (hr.closed id n hnode) hmis
      rw [e2]
      dsimp only
      have hcyc := hr.nocycle id n hnode
      rw [Option.bind_some, fill_map n (addr s2) hcyc]
      dsimp only
      have hk2 := f2.mono _ _ hk1
      have hlt2 := (inv2.bound _ _ hk2).2.1
      have inv3 : Inv nodes (id :: S) (s2.set s.heap.length (n.map (addr s2))) := by
        apply inv2.set id (by simp) _ hk2
        intro x v i h
        rw [hnode] at h; cases h
        exact ⟨_, rfl⟩
      obtain ⟨F, hF⟩ := Option.isSome_iff_exists.1 (hr.fin id n hnode)
      have hF' := hF
      unfold final at hF'
      rw [hnode] at hF'
      obtain ⟨s4, e4, inv4, h4, k4, m4, c4, g4⟩ := applyTags_works hr hd.size fuel _ ih S id s.heap.length hreach n hnode F (tagIDsFrom 1 nodes id) n
        (s2.set s.heap.length (n.map (addr s2))) inv3 hk2 (by simp only [DState.set]; rw [List.getElem?_set_self hlt2]; rfl) k2 hcyc
        (fun nm t l ts pts e => ⟨ts, pts, e⟩) hF' (fun _ h => h) (Nat.lt_of_le_of_lt (missing_mono _ f2.mono) hmis)
      rw [hd.tags id, e4]
      dsimp only
      have hk4 := m4 _ _ hk2
      refine ⟨s4, s.heap.length, rfl, ?_, ?_, .inr (by rw [hk4]; rfl), by rw [addr, if_neg h0, hk4]; rfl⟩
      · constructor
        · exact inv4.void
        · exact inv4.bound
        · exact inv4.inj
        · intro i a hni h
          by_cases he : i = id
          · subst he
            have : a = s.heap.length := Option.some.inj (h.symm.trans hk4)
            subst this
            refine ⟨F, hF, h4, ?_⟩
            intro t ht
            unfold deps at ht
            rw [hnode] at ht
            simp only [List.mem_append] at ht
            rcases ht with ht | ht
            · rcases k2 t ht with k | k
              · exact .inl k
              · obtain ⟨b, hb⟩ := Option.isSome_iff_exists.1 k
                right; rw [m4 _ _ hb]; rfl
            · exact k4 t ht
          · exact inv4.done i a (by simp [he, hni]) h
        · exact fun i hin => inv4.prog i (by simp [hin])
        · exact inv4.shape
      · refine ⟨fun i a h => m4 i a (f2.mono i a (f1.mono i a h)), ?_, ?_⟩
        · intro i hil
          have g2 := f2.grow
          rw [c4 i (by simp only [DState.set, List.length_set]; omega) (by omega)]
          simp only [DState.set]
          rw [List.getElem?_set_ne (by omega), f2.keep i (by omega), hheap i hil]
        · have g2 := f2.grow
          simp only [DState.set, List.length_set] at g4
          omega
end inflate
end Ebpf.Btf
