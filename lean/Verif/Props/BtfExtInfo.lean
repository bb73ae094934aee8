import Verif.Spec.BtfExtInfo
import Verif.Props.BtfBlob
import Verif.Props.BtfIds
import Verif.Props.BtfTypes
/-!
# C39: func and line info; C58: assigning metadata to instructions
-/
namespace Ebpf.Btf
open Ebpf.BtfSpec
variable {R : Type}

/-! ## Words -/

theorem get32l_put32 (bo : ByteOrder) (x : BitVec 32) (r : Bytes) : bo.get32l (bo.put32 x ++ r) = some (x, r) := by
  obtain ⟨a, b, c, d, h1, h2⟩ := get32_put32 bo x
  rw [h1]
  simp [ByteOrder.get32l, h2]

theorem read2_enc (bo : ByteOrder) (a b : BitVec 32) (r : Bytes) : read2 bo (bo.put32 a ++ (bo.put32 b ++ r)) = some ((a, b), r) := by
  simp [read2, get32l_put32]

theorem read4_enc (bo : ByteOrder) (a b c d : BitVec 32) (r : Bytes) : read4 bo (enc4 bo a b c d ++ r) = some ((a, b, c, d), r) := by
  simp [read4, enc4, List.append_assoc, read2_enc]

theorem readFuncRecs_enc (bo : ByteOrder) (rest : Bytes) : ∀ (rs : List FuncRec),
    readFuncRecs bo false rs.length ((rs.map fun r => encFunc bo r.insnOff r.typeID).flatten ++ rest) = some (rs, rest)
  | [] => rfl
  | r :: rs => by
    simp only [List.map_cons, List.flatten_cons, List.length_cons, readFuncRecs, encFunc, List.append_assoc, read2_enc, toInsnOff]
    have := readFuncRecs_enc bo rest rs
    simp only [encFunc] at this
    simp [this]

theorem readLines_enc (bo : ByteOrder) (rest : Bytes) : ∀ (rs : List LineRec),
    readLines bo rs.length ((rs.map fun r => enc4 bo r.insnOff r.fileOff r.lineOff r.lineCol).flatten ++ rest) = some (rs, rest)
  | [] => rfl
  | r :: rs => by
    simp only [List.map_cons, List.flatten_cons, List.length_cons, readLines, List.append_assoc, read4_enc, readLines_enc bo rest rs]

/-- Reading in two steps. -/
theorem readLines_add (bo : ByteOrder) : ∀ (m n : Nat) (bs : Bytes), readLines bo (m + n) bs =
    match readLines bo m bs with
    | none => none
    | some (rs, bs) => match readLines bo n bs with
      | none => none
      | some (rs', bs) => some (rs ++ rs', bs)
  | 0, n, bs => by
    rw [Nat.zero_add]
    simp only [readLines]
    cases readLines bo n bs <;> rfl
  | m + 1, n, bs => by
    rw [Nat.add_right_comm]
    simp only [readLines]
    cases read4 bo bs with
    | none => rfl
    | some x =>
      obtain ⟨⟨a, b, c, d⟩, bs⟩ := x
      simp only [readLines_add bo m n bs]
      cases readLines bo m bs with
      | none => rfl
      | some y =>
        obtain ⟨rs, bs⟩ := y
        simp only
        cases readLines bo n bs <;> rfl

/-- Chunks don't matter. -/
theorem readLineChunks_eq (bo : ByteOrder) : ∀ (k n : Nat) (bs : Bytes), n ≤ k → readLineChunks bo k n bs = readLines bo n bs
  | 0, n, bs, h => by
    obtain rfl : n = 0 := by omega
    rfl
  | k + 1, n, bs, h => by
    unfold readLineChunks
    by_cases hn : n = 0
    · subst hn; rfl
    · rw [if_neg hn]
      have e : n = min 1024 n + (n - min 1024 n) := by omega
      conv => rhs; rw [e, readLines_add]
      cases readLines bo (min 1024 n) bs with
      | none => rfl
      | some x =>
        obtain ⟨rs, bs⟩ := x
        simp only
        rw [readLineChunks_eq bo k (n - min 1024 n) bs (by omega)]
        cases readLines bo (n - min 1024 n) bs <;> rfl

theorem convertOffs_false : ∀ rs : List LineRec, convertOffs false rs = some rs
  | [] => rfl
  | r :: rs => by simp [convertOffs, toInsnOff, convertOffs_false rs]

/-! ## Encoding -/

/-- The strings of the builder. -/
def TypeBuilder.sb (b : TypeBuilder R) : Builder := b.strings.getD Builder.new

theorem addString_ok (b b' : TypeBuilder R) (s : Bytes) (off : BitVec 32) (h : b.addString s = some (off, b')) :
    Ext b.sb b'.sb ∧ b'.sb.strings.lookup s = some off ∧ b'.types = b.types ∧ b'.stableIDs = b.stableIDs ∧ 0#8 ∉ s := by
  unfold TypeBuilder.addString at h
  split at h
  · cases h
  · next o sb hadd =>
    simp only [Option.some.injEq, Prod.mk.injEq] at h
    obtain ⟨rfl, rfl⟩ := h
    have := add_ext _ _ _ _ hadd
    refine ⟨this.1, this.2, rfl, rfl, ?_⟩
    unfold Builder.add at hadd
    split at hadd
    · cases hadd
    · assumption

theorem addString_some (b : TypeBuilder R) (s : Bytes) (h : 0#8 ∉ s) : ∃ r, b.addString s = some r := by
  unfold TypeBuilder.addString Builder.add
  rw [if_neg h]
  cases List.lookup s (b.strings.getD Builder.new).strings <;> simp

theorem lineMax_iff (x : BitVec 32) : ¬ x > bpfLineMax ↔ x.toNat < 2 ^ 22 := by
  have : bpfLineMax.toNat = 2 ^ 22 - 1 := by decide
  rw [gt_iff_lt, BitVec.lt_def, this]; omega

theorem columnMax_iff (x : BitVec 32) : ¬ x > bpfColumnMax ↔ x.toNat < 2 ^ 10 := by
  have : bpfColumnMax.toNat = 2 ^ 10 - 1 := by decide
  rw [gt_iff_lt, BitVec.lt_def, this]; omega

theorem marshalLine_ok (bo : ByteOrder) (b b' : TypeBuilder R) (off : Nat) (l : Line) (bs : Bytes) (h : marshalLine bo b off l = some (bs, b')) :
    LineFits l ∧ Ext b.sb b'.sb ∧ b'.types = b.types ∧ b'.stableIDs = b.stableIDs ∧ ∃ f t, b'.sb.strings.lookup l.file = some f ∧ b'.sb.strings.lookup l.text = some t ∧
      bs = enc4 bo (BitVec.ofNat 32 off) f t (l.number <<< 10 ||| l.column) := by
  unfold marshalLine at h
  split at h; · cases h
  next hn =>
  split at h; · cases h
  next hc =>
  split at h; · cases h
  next f b1 h1 =>
  split at h; · cases h
  next t b2 h2 =>
  simp only [Option.some.injEq, Prod.mk.injEq] at h
  obtain ⟨rfl, rfl⟩ := h
  obtain ⟨e1, l1, t1, s1, n1⟩ := addString_ok _ _ _ _ h1
  obtain ⟨e2, l2, t2, s2, n2⟩ := addString_ok _ _ _ _ h2
  exact ⟨⟨(lineMax_iff _).1 hn, (columnMax_iff _).1 hc, n1, n2⟩, e1.trans e2, t2.trans t1, s2.trans s1, f, t, e2 _ _ l1, l2, rfl⟩

theorem marshalLine_some (bo : ByteOrder) (b : TypeBuilder R) (off : Nat) (l : Line) (h : LineFits l) : ∃ r, marshalLine bo b off l = some r := by
  obtain ⟨h1, h2, h3, h4⟩ := h
  unfold marshalLine
  rw [if_neg ((lineMax_iff _).2 h1), if_neg ((columnMax_iff _).2 h2)]
  obtain ⟨⟨o1, b1⟩, e1⟩ := addString_some b l.file h3
  obtain ⟨⟨o2, b2⟩, e2⟩ := addString_some b1 l.text h4
  simp [e1, e2]

/-- C39: packing line and column. -/
theorem lineCol_unpack (n c : BitVec 32) (hn : n.toNat < 2 ^ 22) (hc : c.toNat < 2 ^ 10) :
    (n <<< 10 ||| c) >>> 10 = n ∧ (n <<< 10 ||| c) &&& bpfColumnMax = c := by
  have e : (n <<< 10 ||| c).toNat = n.toNat * 2 ^ 10 + c.toNat := by
    rw [BitVec.toNat_or, BitVec.toNat_shiftLeft, Nat.shiftLeft_eq, Nat.mod_eq_of_lt (by omega), Nat.mul_comm]
    rw [Nat.two_pow_add_eq_or_of_lt hc]
  constructor
  · apply BitVec.eq_of_toNat_eq
    rw [BitVec.toNat_ushiftRight, e, Nat.shiftRight_eq_div_pow]; omega
  · apply BitVec.eq_of_toNat_eq
    have : bpfColumnMax.toNat = 2 ^ 10 - 1 := by decide
    rw [BitVec.toNat_and, e, this, Nat.and_two_pow_sub_one_eq_mod]; omega

theorem newLineInfo_enc (look : BitVec 32 → Option Bytes) (l : Line) (hf : LineFits l) (off f t : BitVec 32) (h1 : look f = some l.file) (h2 : look t = some l.text) :
    newLineInfo look ⟨off, f, t, l.number <<< 10 ||| l.column⟩ = some (off, l) := by
  obtain ⟨e1, e2⟩ := lineCol_unpack l.number l.column hf.1 hf.2.1
  simp only [newLineInfo, h1, h2, e1, e2]

section
variable [DecidableEq R]

theorem marshalFunc_ok (bo : ByteOrder) (g : Graph R) (b b' : TypeBuilder R) (off : Nat) (f : R) (bs : Bytes) (hb : BInv g b) (hf : g f ≠ .void)
    (h : marshalFunc bo g b off f = some (bs, b')) :
    BInv g b' ∧ b'.sb = b.sb ∧ (∀ u id, b.stableIDs.lookup u = some id → b'.stableIDs.lookup u = some id) ∧
      ∃ id, b'.stableIDs.lookup f = some id ∧ bs = encFunc bo (BitVec.ofNat 32 off) id := by
  unfold marshalFunc at h
  split at h
  · cases h
  · next id b1 hadd =>
    simp only [Option.some.injEq, Prod.mk.injEq] at h
    obtain ⟨rfl, rfl⟩ := h
    have s := add_spec g b b1 f (some id) hb hadd
    refine ⟨s.1, ?_, s.2.1, id, ?_, rfl⟩
    · have one : ∀ (b : TypeBuilder R) t, (b.addOne t).2.strings = b.strings := by
        intro b t; unfold TypeBuilder.addOne; split
        · rfl
        · split <;> rfl
      have many : ∀ (ts : List R) (b : TypeBuilder R), (b.addMany ts).2.strings = b.strings := by
        intro ts
        induction ts with
        | nil => intro b; rfl
        | cons t ts ih =>
          intro b
          unfold TypeBuilder.addMany
          have := one b t
          split
          · next h => rw [h] at this; exact this
          · next h => rw [ih]; rw [h] at this; exact this
      have : b1.strings = b.strings := by
        unfold TypeBuilder.add at hadd
        split at hadd
        · cases hadd; rfl
        · split at hadd
          · cases hadd
          · next b2 hm => have h1 := one b2 f; rw [hadd] at h1; have h2 := many (datasecQualified g ‹List (VarSecinfo R)›) b; rw [hm] at h2; exact h1.trans h2
        · have h1 := one b f; rw [hadd] at h1; exact h1
      simp [TypeBuilder.sb, this]
    · have := s.2.2.1 id rfl; rwa [if_neg hf] at this

/-- What a property `p` of the instructions amounts to, with their raw offsets. -/
def recsAt {α : Type} (p : XIns R → Option α) : Nat → List (XIns R) → List (BitVec 32 × α)
  | _, [] => []
  | off, i :: is => (match p i with | none => [] | some x => [(BitVec.ofNat 32 off, x)]) ++ recsAt p (off + i.width) is

omit [DecidableEq R] in
theorem newLineInfos_append (look : BitVec 32 → Option Bytes) : ∀ (a b : List LineRec) (x y : List (BitVec 32 × Line)),
    newLineInfos look a = some x → newLineInfos look b = some y → newLineInfos look (a ++ b) = some (x ++ y)
  | [], b, x, y, h1, h2 => by simp only [newLineInfos, Option.some.injEq] at h1; subst h1; exact h2
  | r :: a, b, x, y, h1, h2 => by
    simp only [newLineInfos] at h1
    split at h1
    · next l ls hl hls =>
      injection h1 with h1; subst h1
      simp [newLineInfos, hl, newLineInfos_append look a b ls y hls h2]
    · cases h1

omit [DecidableEq R] in
theorem newFuncOffsets_append (g : Graph R) (t : BitVec 32 → Option R) : ∀ (a b : List FuncRec) (x y : List (BitVec 32 × R)),
    newFuncOffsets g t a = some x → newFuncOffsets g t b = some y → newFuncOffsets g t (a ++ b) = some (x ++ y)
  | [], b, x, y, h1, h2 => by simp only [newFuncOffsets, Option.some.injEq] at h1; subst h1; exact h2
  | r :: a, b, x, y, h1, h2 => by
    simp only [newFuncOffsets] at h1
    split at h1
    · next l ls hl hls =>
      injection h1 with h1; subst h1
      simp [newFuncOffsets, hl, newFuncOffsets_append g t a b ls y hls h2]
    · cases h1

/-- The facts about a successful run of the loop. -/
structure Marshalled (bo : ByteOrder) (g : Graph R) (off : Nat) (is : List (XIns R)) (b b' : TypeBuilder R) (fs ls : Bytes) (frecs : List FuncRec) (lrecs : List LineRec) : Prop where
  inv : BInv g b'
  ext : Ext b.sb b'.sb
  keep : ∀ u id, b.stableIDs.lookup u = some id → b'.stableIDs.lookup u = some id
  fits : ∀ i ∈ is, ∀ s, i.source = some s → LineFits (shownLine s)
  fs : fs = (frecs.map fun r => encFunc bo r.insnOff r.typeID).flatten
  ls : ls = (lrecs.map fun r => enc4 bo r.insnOff r.fileOff r.lineOff r.lineCol).flatten
  lines : ∀ look, Resolves look b'.sb → newLineInfos look lrecs = some (recsAt (fun i => i.source.map shownLine) off is)
  funcs : ∀ (R' : Type) (g' : Graph R') (typeByID : BitVec 32 → Option R') (emb : R → R'),
    (∀ f id, b'.stableIDs.lookup f = some id → typeByID id = some (emb f)) →
    (∀ i ∈ is, ∀ f, i.func = some f → ∃ n t k ts ps, g' (emb f) = .func n t k ts ps ∧ n ≠ []) →
    newFuncOffsets g' typeByID frecs = some (recsAt (fun i => i.func.map emb) off is)

omit [DecidableEq R] in
theorem toLine_shown (s : Source) : s.toLine = shownLine s := by cases s <;> rfl

theorem marshalLoop_ok (bo : ByteOrder) (g : Graph R) : ∀ (is : List (XIns R)) (off : Nat) (b b' : TypeBuilder R) (fs ls : Bytes), BInv g b →
    (∀ i ∈ is, ∀ f, i.func = some f → g f ≠ .void) → marshalLoop bo g off is b = some (fs, ls, b') →
    ∃ frecs lrecs, Marshalled bo g off is b b' fs ls frecs lrecs
  | [], off, b, b', fs, ls, hb, hf, h => by
    simp only [marshalLoop, Option.some.injEq, Prod.mk.injEq] at h
    obtain ⟨rfl, rfl, rfl⟩ := h
    exact ⟨[], [], hb, Ext.refl _, fun _ _ h => h, by simp, rfl, rfl, fun _ _ => rfl, fun _ _ _ _ _ _ => rfl⟩
  | i :: is, off, b, b', fs, ls, hb, hf, h => by
    unfold marshalLoop at h
    split at h
    · cases h
    next fi b1 h1 =>
    split at h
    · cases h
    next li b2 h2 =>
    split at h
    · cases h
    next fs' ls' b3 h3 =>
    simp only [Option.some.injEq, Prod.mk.injEq] at h
    obtain ⟨rfl, rfl, rfl⟩ := h
    -- the func info
    have F : BInv g b1 ∧ Ext b.sb b1.sb ∧ (∀ u id, b.stableIDs.lookup u = some id → b1.stableIDs.lookup u = some id) ∧
        ∃ fr : List FuncRec, fi = (fr.map fun r => encFunc bo r.insnOff r.typeID).flatten ∧
          (i.func = none ∧ fr = [] ∨ ∃ f id, i.func = some f ∧ b1.stableIDs.lookup f = some id ∧ fr = [⟨BitVec.ofNat 32 off, id⟩]) := by
      cases hi : i.func with
      | none =>
        simp only [hi, Option.some.injEq, Prod.mk.injEq] at h1
        obtain ⟨rfl, rfl⟩ := h1
        exact ⟨hb, Ext.refl _, fun _ _ h => h, [], rfl, Or.inl ⟨rfl, rfl⟩⟩
      | some f =>
        simp only [hi] at h1
        obtain ⟨m1, m2, m3, id, m4, m5⟩ := marshalFunc_ok bo g b b1 off f fi hb (hf i (by simp) f hi) h1
        exact ⟨m1, by rw [m2]; exact Ext.refl _, m3, [⟨BitVec.ofNat 32 off, id⟩], by simp [m5], Or.inr ⟨f, id, rfl, m4, rfl⟩⟩
    obtain ⟨f1, f2, f3, fr, f4, f5⟩ := F
    -- the line info
    have L : b2.types = b1.types ∧ b2.stableIDs = b1.stableIDs ∧ Ext b1.sb b2.sb ∧ (∀ s, i.source = some s → LineFits (shownLine s)) ∧
        ∃ lr : List LineRec, li = (lr.map fun r => enc4 bo r.insnOff r.fileOff r.lineOff r.lineCol).flatten ∧
          ∀ look, Resolves look b2.sb → newLineInfos look lr = some (match i.source.map shownLine with | none => [] | some x => [(BitVec.ofNat 32 off, x)]) := by
      cases hi : i.source with
      | none =>
        simp only [hi, Option.some.injEq, Prod.mk.injEq] at h2
        obtain ⟨rfl, rfl⟩ := h2
        exact ⟨rfl, rfl, Ext.refl _, by simp, [], rfl, fun _ _ => rfl⟩
      | some s =>
        simp only [hi] at h2
        rw [toLine_shown] at h2
        obtain ⟨m1, m2, m3, m4, f, t, m5, m6, m7⟩ := marshalLine_ok bo b1 b2 off (shownLine s) li h2
        refine ⟨m3, m4, m2, fun s' hs => by injection hs with hs; subst hs; exact m1, [⟨BitVec.ofNat 32 off, f, t, (shownLine s).number <<< 10 ||| (shownLine s).column⟩], by simp [m7], ?_⟩
        intro look hl
        simp [newLineInfos, newLineInfo_enc look (shownLine s) m1 _ f t (hl _ _ m5) (hl _ _ m6)]
    obtain ⟨l1, l2, l3, l4, lr, l5, l6⟩ := L
    have hb2 : BInv g b2 := by
      obtain ⟨ty, ids, st⟩ := b2
      simp only at l1 l2; subst l1; subst l2
      exact ⟨f1.fwd, f1.bwd, f1.nonvoid⟩
    obtain ⟨frecs, lrecs, M⟩ := marshalLoop_ok bo g is (off + i.width) b2 b3 fs' ls' hb2 (fun j hj => hf j (by simp [hj])) h3
    refine ⟨fr ++ frecs, lr ++ lrecs, M.inv, f2.trans (l3.trans M.ext), fun u id h => M.keep u id (by rw [l2]; exact f3 u id h), ?_, ?_, ?_, ?_, ?_⟩
    · intro j hj s hs
      rcases List.mem_cons.1 hj with rfl | hj
      · exact l4 s hs
      · exact M.fits j hj s hs
    · rw [f4, M.fs]; simp
    · rw [l5, M.ls]; simp
    · intro look hl
      have := newLineInfos_append look lr lrecs _ _ (l6 look (hl.mono M.ext)) (M.lines look hl)
      rw [this]
      cases hs : i.source <;> simp [recsAt, hs]
    · intro R' g' typeByID emb ht hn
      refine newFuncOffsets_append g' typeByID fr frecs _ _ ?_ (M.funcs R' g' typeByID emb ht fun j hj => hn j (by simp [hj]))
      rcases f5 with ⟨e1, rfl⟩ | ⟨f, id, e1, e2, rfl⟩
      · simp [newFuncOffsets, e1]
      · obtain ⟨n, t, k, ts, ps, hg, hne⟩ := hn i (by simp) f e1
        have := ht f id (M.keep f id (by rw [l2]; exact e2))
        simp [newFuncOffsets, newFuncOffset, this, hg, hne, e1]

end

/-! ## Assigning metadata -/

theorem takeAt_miss {α : Type} (raw : Nat) (q : List (BitVec 32 × α)) (h : ∀ x ∈ q, x.1.toNat ≠ raw) : takeAt raw q = (none, q) := by
  cases q with
  | nil => rfl
  | cons x q => simp [takeAt, h x (by simp)]

theorem recsAt_bounds {α : Type} (p : XIns R → Option α) : ∀ (is : List (XIns R)) (off : Nat), (∀ i ∈ is, 1 ≤ i.width) →
    off + (is.map (·.width)).sum < 2 ^ 32 →
    (∀ x ∈ recsAt p off is, off ≤ x.1.toNat) ∧ (recsAt p off is).Pairwise fun a b => a.1.toNat < b.1.toNat
  | [], off, _, _ => by simp [recsAt]
  | i :: is, off, hw, hs => by
    simp only [List.map_cons, List.sum_cons] at hs
    have w1 := hw i (by simp)
    obtain ⟨h1, h2⟩ := recsAt_bounds p is (off + i.width) (fun j hj => hw j (by simp [hj])) (by omega)
    unfold recsAt
    cases p i with
    | none => exact ⟨fun x hx => by have := h1 x (by simpa using hx); omega, by simpa using h2⟩
    | some y =>
      have e : (BitVec.ofNat 32 off).toNat = off := by rw [BitVec.toNat_ofNat, Nat.mod_eq_of_lt (by omega)]
      refine ⟨?_, ?_⟩
      · intro x hx
        simp only [List.cons_append, List.nil_append, List.mem_cons] at hx
        rcases hx with rfl | hx
        · simp only [e]; omega
        · have := h1 x hx; omega
      · simp only [List.cons_append, List.nil_append, List.pairwise_cons, e]
        exact ⟨fun x hx => by have := h1 x hx; omega, h2⟩

theorem attach_recsAt {α : Type} (p : XIns R → Option α) : ∀ (is : List (XIns R)) (off : Nat), (∀ i ∈ is, 1 ≤ i.width) →
    off + (is.map (·.width)).sum < 2 ^ 32 → attach off (is.map (·.width)) (recsAt p off is) = is.map p
  | [], off, _, _ => rfl
  | i :: is, off, hw, hs => by
    simp only [List.map_cons, List.sum_cons] at hs
    have w1 := hw i (by simp)
    have ih := attach_recsAt p is (off + i.width) (fun j hj => hw j (by simp [hj])) (by omega)
    obtain ⟨h1, _⟩ := recsAt_bounds p is (off + i.width) (fun j hj => hw j (by simp [hj])) (by omega)
    have miss := takeAt_miss off (recsAt p (off + i.width) is) (fun x hx => by have := h1 x hx; omega)
    have e : (BitVec.ofNat 32 off).toNat = off := by rw [BitVec.toNat_ofNat, Nat.mod_eq_of_lt (by omega)]
    simp only [List.map_cons, attach, recsAt]
    cases hp : p i with
    | none => simp only [List.nil_append, miss, ih]
    | some y => simp only [List.cons_append, List.nil_append, takeAt, e, if_true, ih]

/-- Sorting strictly increasing records changes nothing. -/
theorem sortsTo_self {α : Type} (l r : List (BitVec 32 × α)) (h : l.Pairwise fun a b => a.1.toNat < b.1.toNat) (hs : SortsTo l r) : r = l := by
  refine hs.1.eq_of_pairwise ?_ hs.2 (h.imp fun h => Nat.le_of_lt h)
  intro a b ha hb h1 h2
  have hb' := hb
  have ha' : a ∈ l := hs.1.mem_iff.1 ha
  have e : a.1.toNat = b.1.toNat := by omega
  obtain ⟨i, hi⟩ := List.getElem?_of_mem ha'
  obtain ⟨j, hj⟩ := List.getElem?_of_mem hb'
  rw [List.pairwise_iff_getElem] at h
  obtain ⟨hi1, hi2⟩ := List.getElem?_eq_some_iff.1 hi
  obtain ⟨hj1, hj2⟩ := List.getElem?_eq_some_iff.1 hj
  rcases Nat.lt_trichotomy i j with hij | hij | hij
  · have := h i j hi1 hj1 hij; rw [hi2, hj2] at this; omega
  · subst hij; rw [hi] at hj; injection hj
  · have := h j i hj1 hi1 hij; rw [hi2, hj2] at this; omega

section
variable [DecidableEq R]

/-- Instructions without metadata at the start make no difference. -/
theorem marshalExtInfos_eq (bo : ByteOrder) (g : Graph R) : ∀ (is : List (XIns R)) (off : Nat) (b : TypeBuilder R),
    marshalExtInfos bo g off is b = marshalLoop bo g off is b
  | [], off, b => rfl
  | i :: is, off, b => by
    unfold marshalExtInfos
    split
    · rfl
    · next h =>
      simp only [Bool.or_eq_true, not_or, Bool.not_eq_true, Option.isSome_eq_false_iff, Option.isNone_iff_eq_none] at h
      rw [marshalExtInfos_eq bo g is]
      conv => rhs; unfold marshalLoop
      simp only [h.1, h.2]
      cases marshalLoop bo g (off + i.width) is b <;> simp

/-- C39: the func and line info of a program, loaded again and assigned to its instructions, is what the instructions carried: the same
function, line number, column, file and text on the same instructions and nothing anywhere else. The string table may have grown since
(`look` finds everything the builder contained). -/
theorem extinfo_roundtrip (bo : ByteOrder) (g : Graph R) (is : List (XIns R)) (b b' : TypeBuilder R) (fs ls : Bytes) (hb : BInv g b)
    (hw : ∀ i ∈ is, 1 ≤ i.width) (hsum : (is.map (·.width)).sum < 2 ^ 32) (hf : ∀ i ∈ is, ∀ f, i.func = some f → g f ≠ .void)
    (h : marshalExtInfos bo g 0 is b = some (fs, ls, b')) :
    (∀ look, Resolves look b'.sb → ∃ l, loadLineInfos bo look (ls.length / 16) ls = some l ∧
      ∀ r, SortsTo l r → attach 0 (is.map (·.width)) r = is.map fun i => i.source.map shownLine) ∧
    (∀ (R' : Type) (g' : Graph R') (typeByID : BitVec 32 → Option R') (emb : R → R'),
      (∀ f id, b'.stableIDs.lookup f = some id → typeByID id = some (emb f)) →
      (∀ i ∈ is, ∀ f, i.func = some f → ∃ n t k ts ps, g' (emb f) = .func n t k ts ps ∧ n ≠ []) →
      ∃ l, loadFuncInfos bo g' typeByID (fs.length / 8) fs = some l ∧
        ∀ r, SortsTo l r → attach 0 (is.map (·.width)) r = is.map fun i => i.func.map emb) := by
  rw [marshalExtInfos_eq] at h
  obtain ⟨frecs, lrecs, M⟩ := marshalLoop_ok bo g is 0 b b' fs ls hb hf h
  have p32 : ∀ x, (bo.put32 x).length = 4 := by intro x; cases bo <;> rfl
  have flen : ∀ rs : List FuncRec, ((rs.map fun r => encFunc bo r.insnOff r.typeID).flatten).length = 8 * rs.length := by
    intro rs
    induction rs with
    | nil => rfl
    | cons r rs ih => rw [List.map_cons, List.flatten_cons, List.length_append, ih]; simp [encFunc, p32]; omega
  have llen : ∀ rs : List LineRec, ((rs.map fun r => enc4 bo r.insnOff r.fileOff r.lineOff r.lineCol).flatten).length = 16 * rs.length := by
    intro rs
    induction rs with
    | nil => rfl
    | cons r rs ih => rw [List.map_cons, List.flatten_cons, List.length_append, ih]; simp [enc4, p32]; omega
  constructor
  · intro look hl
    refine ⟨recsAt (fun i => i.source.map shownLine) 0 is, ?_, ?_⟩
    · rw [M.ls, llen, Nat.mul_div_cancel_left _ (by omega)]
      have := readLines_enc bo [] lrecs
      rw [List.append_nil] at this
      simp only [loadLineInfos, readLineRecs, readLineChunks_eq bo _ _ _ (Nat.le_refl _), this, convertOffs_false]
      exact M.lines look hl
    · intro r hr
      rw [sortsTo_self _ r (recsAt_bounds _ is 0 hw (by omega)).2 hr]
      exact attach_recsAt _ is 0 hw (by omega)
  · intro R' g' typeByID emb ht hn
    refine ⟨recsAt (fun i => i.func.map emb) 0 is, ?_, ?_⟩
    · rw [M.fs, flen, Nat.mul_div_cancel_left _ (by omega)]
      have := readFuncRecs_enc bo [] frecs
      rw [List.append_nil] at this
      simp only [loadFuncInfos, this]
      exact M.funcs R' g' typeByID emb ht hn
    · intro r hr
      rw [sortsTo_self _ r (recsAt_bounds _ is 0 hw (by omega)).2 hr]
      exact attach_recsAt _ is 0 hw (by omega)

/-- C39: lines that don't fit are refused, everything else is accepted (as long as type IDs last). -/
theorem extinfo_accepts (bo : ByteOrder) (g : Graph R) (is : List (XIns R)) (b : TypeBuilder R) (hb : BInv g b)
    (hf : ∀ i ∈ is, ∀ f, i.func = some f → ∃ n t k ts ps, g f = .func n t k ts ps) (hids : b.types.length + is.length < 2 ^ 32) :
    (∃ r, marshalExtInfos bo g 0 is b = some r) ↔ ∀ i ∈ is, ∀ s, i.source = some s → LineFits (shownLine s) := by
  rw [marshalExtInfos_eq]
  have hv : ∀ i ∈ is, ∀ f, i.func = some f → g f ≠ .void := by
    intro i hi f hif
    obtain ⟨n, t, k, ts, ps, h⟩ := hf i hi f hif
    rw [h]; simp
  constructor
  · rintro ⟨⟨fs, ls, b'⟩, h⟩
    obtain ⟨_, _, M⟩ := marshalLoop_ok bo g is 0 b b' fs ls hb hv h
    exact M.fits
  · intro hfit
    have key : ∀ (is : List (XIns R)) (off : Nat) (b : TypeBuilder R), BInv g b →
        (∀ i ∈ is, ∀ f, i.func = some f → ∃ n t k ts ps, g f = .func n t k ts ps) → b.types.length + is.length < 2 ^ 32 →
        (∀ i ∈ is, ∀ s, i.source = some s → LineFits (shownLine s)) → ∃ r, marshalLoop bo g off is b = some r := by
      intro is
      induction is with
      | nil => intro off b _ _ _ _; exact ⟨_, rfl⟩
      | cons i is ih =>
        intro off b hb hf hids hfit
        simp only [List.length_cons] at hids
        have F : ∃ fi b1, (match i.func with | none => some ([], b) | some f => marshalFunc bo g b off f) = some (fi, b1) ∧ BInv g b1 ∧
            b1.types.length ≤ b.types.length + 1 := by
          cases hi : i.func with
          | none => exact ⟨_, _, rfl, hb, by omega⟩
          | some f =>
            obtain ⟨n, t, k, ts, ps, hg⟩ := hf i (by simp) f hi
            simp only [marshalFunc]
            have hadd : b.add g f = b.addOne f := by unfold TypeBuilder.add; rw [hg]
            have hs := add_spec g b (b.add g f).2 f (b.add g f).1 hb rfl
            have hl : (b.addOne f).2.types.length ≤ b.types.length + 1 := by
              unfold TypeBuilder.addOne
              split
              · simp
              · split <;> simp
            rw [hadd] at hs ⊢
            cases hr : b.addOne f with
            | mk r b1 =>
              rw [hr] at hs hl
              cases r with
              | none => have := hs.2.2.2.1 rfl; simp only at this hl; omega
              | some id => exact ⟨_, b1, rfl, hs.1, hl⟩
        obtain ⟨fi, b1, h1, hb1, hl1⟩ := F
        have L : ∃ li b2, (match i.source with | none => some ([], b1) | some s => marshalLine bo b1 off s.toLine) = some (li, b2) ∧ BInv g b2 ∧
            b2.types = b1.types := by
          cases hi : i.source with
          | none => exact ⟨_, _, rfl, hb1, rfl⟩
          | some s =>
            simp only [toLine_shown]
            obtain ⟨⟨li, b2⟩, h2⟩ := marshalLine_some bo b1 off (shownLine s) (hfit i (by simp) s hi)
            obtain ⟨_, _, m3, m4, _⟩ := marshalLine_ok bo b1 b2 off (shownLine s) li h2
            refine ⟨li, b2, h2, ?_, m3⟩
            obtain ⟨ty, ids, st⟩ := b2
            simp only at m3 m4; subst m3; subst m4
            exact ⟨hb1.fwd, hb1.bwd, hb1.nonvoid⟩
        obtain ⟨li, b2, h2, hb2, hl2⟩ := L
        obtain ⟨⟨fs, ls, b3⟩, h3⟩ := ih (off + i.width) b2 hb2 (fun j hj => hf j (by simp [hj])) (by rw [hl2]; omega) (fun j hj => hfit j (by simp [hj]))
        refine ⟨(fi ++ fs, li ++ ls, b3), ?_⟩
        unfold marshalLoop
        cases hi : i.func <;> cases hs : i.source <;> simp only [hi, hs] at h1 h2 ⊢
        · cases h1; cases h2; rw [h3]
        · cases h1; rw [h2]; simp only; rw [h3]
        · rw [h1]; cases h2; simp only; rw [h3]
        · rw [h1]; simp only; rw [h2]; simp only; rw [h3]
    exact key is 0 b hb hf hids hfit

/-- The builder still holds all its strings at the offsets it gave out, so that the table written from it (`resolves_table`) serves as `look`. -/
theorem extinfo_strings (bo : ByteOrder) (g : Graph R) : ∀ (is : List (XIns R)) (off : Nat) (b b' : TypeBuilder R) (fs ls : Bytes) (order : List Bytes),
    Holds b.sb order → marshalExtInfos bo g off is b = some (fs, ls, b') → ∃ order', Holds b'.sb order' := by
  have one : ∀ (b b' : TypeBuilder R) (s : Bytes) (o : BitVec 32) (order : List Bytes), Holds b.sb order → b.addString s = some (o, b') →
      ∃ order', Holds b'.sb order' := by
    intro b b' s o order hb h
    unfold TypeBuilder.addString at h
    split at h
    · cases h
    · next off sb hadd =>
      simp only [Option.some.injEq, Prod.mk.injEq] at h
      obtain ⟨rfl, rfl⟩ := h
      obtain ⟨_, order', h', _⟩ := holds_add _ _ _ _ _ hb hadd
      exact ⟨order', h'⟩
  have addOne : ∀ (b : TypeBuilder R) t, (b.addOne t).2.strings = b.strings := by
    intro b t
    unfold TypeBuilder.addOne
    split
    · rfl
    · split <;> rfl
  have addMany : ∀ (ts : List R) (b : TypeBuilder R), (b.addMany ts).2.strings = b.strings := by
    intro ts
    induction ts with
    | nil => intro b; rfl
    | cons t ts ih =>
      intro b
      unfold TypeBuilder.addMany
      have h1 := addOne b t
      split
      · next h => rw [h] at h1; exact h1
      · next h => rw [h] at h1; rw [ih]; exact h1
  have add : ∀ (b : TypeBuilder R) t, (b.add g t).2.strings = b.strings := by
    intro b t
    unfold TypeBuilder.add
    split
    · rfl
    · next vars hd =>
      have h1 := addMany (datasecQualified g vars) b
      split
      · next h => rw [h] at h1; exact h1
      · next h => rw [h] at h1; rw [addOne]; exact h1
    · exact addOne b t
  have loop : ∀ (is : List (XIns R)) (off : Nat) (b b' : TypeBuilder R) (fs ls : Bytes) (order : List Bytes),
      Holds b.sb order → marshalLoop bo g off is b = some (fs, ls, b') → ∃ order', Holds b'.sb order' := by
    intro is
    induction is with
    | nil =>
      intro off b b' fs ls order hb h
      simp only [marshalLoop, Option.some.injEq, Prod.mk.injEq] at h
      obtain ⟨_, _, rfl⟩ := h
      exact ⟨order, hb⟩
    | cons i is ih =>
      intro off b b' fs ls order hb h
      unfold marshalLoop at h
      split at h
      · cases h
      · next fi b1 h1 =>
        have s1 : ∃ order', Holds b1.sb order' := by
          split at h1
          · cases h1; exact ⟨order, hb⟩
          · unfold marshalFunc at h1
            split at h1
            · cases h1
            · next f _ id b1' h2 =>
              simp only [Option.some.injEq, Prod.mk.injEq] at h1
              obtain ⟨_, rfl⟩ := h1
              have := congrArg (fun x => x.2.strings) h2
              simp only [add] at this
              exact ⟨order, by unfold TypeBuilder.sb; rw [← this]; exact hb⟩
        obtain ⟨order1, hb1⟩ := s1
        split at h
        · cases h
        · next li b2 h2 =>
          have s2 : ∃ order', Holds b2.sb order' := by
            split at h2
            · cases h2; exact ⟨order1, hb1⟩
            · unfold marshalLine at h2
              split at h2
              · cases h2
              · split at h2
                · cases h2
                · split at h2
                  · cases h2
                  · next h3 =>
                    split at h2
                    · cases h2
                    · next h4 =>
                      simp only [Option.some.injEq, Prod.mk.injEq] at h2
                      obtain ⟨_, rfl⟩ := h2
                      obtain ⟨o2, hb2⟩ := one _ _ _ _ _ hb1 h3
                      exact one _ _ _ _ _ hb2 h4
          obtain ⟨order2, hb2⟩ := s2
          split at h
          · cases h
          · next h3 =>
            simp only [Option.some.injEq, Prod.mk.injEq] at h
            obtain ⟨_, _, rfl⟩ := h
            exact ih _ _ _ _ _ _ hb2 h3
  intro is off b b' fs ls order hb h
  rw [marshalExtInfos_eq] at h
  exact loop is off b b' fs ls order hb h

end

/-- A function, a line on a wide instruction, an instruction without metadata and a comment. -/
def exInsns : List (XIns Nat) :=
  [⟨1, some 1, none⟩, ⟨2, none, some (.line ⟨lit "a.c", lit "x = 1;", 4194303, 1023⟩)⟩, ⟨1, none, none⟩, ⟨1, none, some (.comment (lit "hi"))⟩]

/-- Type 1 is a function. -/
def exFuncGraph : Graph Nat := fun t => if t = 1 then .func (lit "f") 2 1 [] [] else .int (lit "int") 4 1

/-- The hypotheses of C39 are met. -/
example : ∃ fs ls b', marshalExtInfos .little exFuncGraph 0 exInsns TypeBuilder.empty = some (fs, ls, b') ∧ BInv exFuncGraph (TypeBuilder.empty : TypeBuilder Nat) ∧
    fs.length = 8 ∧ ls.length = 32 := by
  refine ⟨_, _, _, by rfl, binv_empty _, by decide +kernel, by decide +kernel⟩

/-- A line number that takes 23 bits is refused. -/
example : marshalExtInfos .little exFuncGraph 0 [⟨1, none, some (.line ⟨[], [], 4194304, 0⟩)⟩] TypeBuilder.empty = none := by decide +kernel

/-! ## C58 -/

theorem attach_nil {α : Type} : ∀ (ws : List Nat) (raw : Nat), attach raw ws ([] : List (BitVec 32 × α)) = ws.map fun _ => none
  | [], _ => rfl
  | w :: ws, raw => by simp [attach, takeAt, attach_nil ws]

theorem starts_ge : ∀ (ws : List Nat) (raw o : Nat), o ∈ starts raw ws → raw ≤ o
  | [], _, _, h => by simp [starts] at h
  | w :: ws, raw, o, h => by
    simp only [starts, List.mem_cons] at h
    rcases h with rfl | h
    · exact Nat.le_refl _
    · have := starts_ge ws _ _ h; omega

theorem starts_length : ∀ (ws : List Nat) (raw : Nat), (starts raw ws).length = ws.length
  | [], _ => rfl
  | w :: ws, raw => by simp [starts, starts_length ws]

/-- C58: if the records have different offsets, in increasing order, and each one points at an instruction, then an instruction gets exactly
the record that points at it. -/
theorem attach_exact {α : Type} : ∀ (ws : List Nat) (raw : Nat) (q : List (BitVec 32 × α)), (∀ w ∈ ws, 1 ≤ w) →
    (q.Pairwise fun a b => a.1.toNat < b.1.toNat) → (∀ x ∈ q, x.1.toNat ∈ starts raw ws) →
    ∀ (i : Nat) o, (starts raw ws)[i]? = some o → ∃ r, (attach raw ws q)[i]? = some r ∧ ∀ a, r = some a ↔ ∃ x ∈ q, x.1.toNat = o ∧ x.2 = a
  | [], raw, q, _, _, _, i, o, h => by simp [starts] at h
  | w :: ws, raw, q, hw, hs, hq, i, o, h => by
    have w1 := hw w (by simp)
    have rest : ∀ q' : List (BitVec 32 × α), (q'.Pairwise fun a b => a.1.toNat < b.1.toNat) → (∀ x ∈ q', x ∈ q) → (∀ x ∈ q', raw < x.1.toNat) →
        (∀ x ∈ q, x.1.toNat ≠ raw → x ∈ q') →
        ∀ (i : Nat) o, (starts (raw + w) ws)[i]? = some o → ∃ r, (attach (raw + w) ws q')[i]? = some r ∧ ∀ a, r = some a ↔ ∃ x ∈ q, x.1.toNat = o ∧ x.2 = a := by
      intro q' h1 h2 h3 h4 i o ho
      have h5 : ∀ x ∈ q', x.1.toNat ∈ starts (raw + w) ws := by
        intro x hx
        have := hq x (h2 x hx)
        simp only [starts, List.mem_cons] at this
        rcases this with e | e
        · have := h3 x hx; omega
        · exact e
      obtain ⟨r, hr, ha⟩ := attach_exact ws (raw + w) q' (fun v hv => hw v (by simp [hv])) h1 h5 i o ho
      refine ⟨r, hr, fun a => (ha a).trans ⟨?_, ?_⟩⟩
      · rintro ⟨x, hx, e1, e2⟩; exact ⟨x, h2 x hx, e1, e2⟩
      · rintro ⟨x, hx, e1, e2⟩
        have := starts_ge ws _ _ (List.mem_of_getElem? ho)
        exact ⟨x, h4 x hx (by omega), e1, e2⟩
    have ge : ∀ x ∈ q, raw ≤ x.1.toNat := fun x hx => starts_ge _ _ _ (hq x hx)
    cases q with
    | nil => exact ⟨none, by rw [attach_nil, List.getElem?_map]; have := starts_length (w :: ws) raw; have hl := (List.getElem?_eq_some_iff.1 h).1; rw [List.getElem?_eq_getElem (by omega)]; rfl, by simp⟩
    | cons y q =>
      rw [List.pairwise_cons] at hs
      by_cases hy : y.1.toNat = raw
      · have gt : ∀ x ∈ q, raw < x.1.toNat := fun x hx => by have := hs.1 x hx; omega
        have ht : takeAt raw (y :: q) = (some y.2, q) := by simp [takeAt, hy]
        simp only [attach, ht]
        cases i with
        | zero =>
          simp only [starts, List.getElem?_cons_zero, Option.some.injEq] at h
          subst h
          refine ⟨some y.2, by simp, fun a => ?_⟩
          constructor
          · intro e; injection e with e; exact ⟨y, by simp, hy, e⟩
          · rintro ⟨x, hx, e1, e2⟩
            rcases List.mem_cons.1 hx with rfl | hx
            · rw [e2]
            · have := gt x hx; omega
        | succ i =>
          simp only [starts, List.getElem?_cons_succ] at h ⊢
          exact rest q hs.2 (fun x hx => by simp [hx]) gt (fun x hx hne => by
            rcases List.mem_cons.1 hx with rfl | hx
            · exact absurd hy hne
            · exact hx) i o h
      · have gt : ∀ x ∈ y :: q, raw < x.1.toNat := by
          intro x hx
          have h0 := ge y (by simp)
          rcases List.mem_cons.1 hx with rfl | hx
          · omega
          · have := hs.1 x hx; omega
        have ht : takeAt raw (y :: q) = (none, y :: q) := by simp [takeAt, hy]
        simp only [attach, ht]
        cases i with
        | zero =>
          simp only [starts, List.getElem?_cons_zero, Option.some.injEq] at h
          subst h
          refine ⟨none, by simp, fun a => ?_⟩
          constructor
          · intro e; cases e
          · rintro ⟨x, hx, e1, _⟩; have := gt x hx; omega
        | succ i =>
          simp only [starts, List.getElem?_cons_succ] at h ⊢
          exact rest (y :: q) (List.pairwise_cons.2 hs) (fun x hx => hx) gt (fun x hx _ => hx) i o h

/-- C58 fails otherwise: a record that points between instructions (or to none) hides all records after it. -/
theorem attach_stalls {α : Type} : ∀ (ws : List Nat) (raw : Nat) (pre post : List (BitVec 32 × α)) (x : BitVec 32 × α),
    x.1.toNat ∉ starts raw ws → attach raw ws (pre ++ x :: post) = attach raw ws pre
  | [], _, _, _, _, _ => rfl
  | w :: ws, raw, pre, post, x, h => by
    simp only [starts, List.mem_cons, not_or] at h
    cases pre with
    | nil =>
      have := attach_stalls ws (raw + w) [] post x h.2
      simp only [List.nil_append] at this ⊢
      simp [attach, takeAt, Ne.symm h.1 |> fun h' => (Ne.symm h' : x.1.toNat ≠ raw), this]
    | cons y pre =>
      by_cases hy : y.1.toNat = raw
      · have := attach_stalls ws (raw + w) pre post x h.2
        simp [attach, takeAt, hy, this]
      · have := attach_stalls ws (raw + w) (y :: pre) post x h.2
        simp only [List.cons_append] at this
        simp [attach, takeAt, hy, this]

/-- So does a second record for the same instruction. -/
theorem attach_duplicate_stalls {α : Type} : ∀ (ws : List Nat) (raw : Nat) (pre post : List (BitVec 32 × α)) (x y : BitVec 32 × α), (∀ w ∈ ws, 1 ≤ w) →
    x.1 = y.1 → attach raw ws (pre ++ x :: y :: post) = attach raw ws (pre ++ [x])
  | [], _, _, _, _, _, _, _ => rfl
  | w :: ws, raw, pre, post, x, y, hw, h => by
    have w1 := hw w (by simp)
    have ih := fun pre => attach_duplicate_stalls ws (raw + w) pre post x y (fun v hv => hw v (by simp [hv])) h
    cases pre with
    | nil =>
      by_cases hx : x.1.toNat = raw
      · have st : y.1.toNat ∉ starts (raw + w) ws := by
          intro hm; have := starts_ge _ _ _ hm; rw [← h] at this; omega
        have := attach_stalls ws (raw + w) [] post y st
        simp only [List.nil_append] at this
        simp [attach, takeAt, hx, this]
      · have := ih []
        simp only [List.nil_append] at this
        simp [attach, takeAt, hx, this]
    | cons z pre =>
      by_cases hz : z.1.toNat = raw
      · simp [attach, takeAt, hz, ih pre]
      · have := ih (z :: pre)
        simp only [List.cons_append] at this
        simp [attach, takeAt, hz, this]

/-- The records of the second and fourth instruction. -/
example : attach 0 [1, 2, 1, 1] [((1 : BitVec 32), 'a'), (4, 'b')] = [none, some 'a', none, some 'b'] := by decide

/-- Offset 2 is the second half of a wide instruction. -/
example : attach 0 [1, 2, 1, 1] [((1 : BitVec 32), 'a'), (2, 'x'), (4, 'b')] = [none, some 'a', none, none] := by decide

end Ebpf.Btf
