import Verif.Spec.StructOps
/-!
# C75: struct_ops maps hold the struct of the object
-/
namespace Ebpf.StructOps
open Ebpf.StructOpsSpec

theorem bytesAt_get (b : Bytes) (off n i : Nat) : (bytesAt b off n)[i]? = if i < n then b[off + i]? else none := by
  unfold bytesAt
  rw [List.getElem?_take]
  split
  · rw [List.getElem?_drop]
  · rfl

theorem writeAt_length {buf bs : Bytes} {off : Nat} (h : off + bs.length ≤ buf.length) : (writeAt buf off bs).length = buf.length := by
  unfold writeAt
  simp only [List.length_append, List.length_take, List.length_drop]
  omega

theorem writeAt_get {buf bs : Bytes} {off : Nat} (h : off + bs.length ≤ buf.length) (i : Nat) :
    (writeAt buf off bs)[i]? = if off ≤ i ∧ i < off + bs.length then bs[i - off]? else buf[i]? := by
  unfold writeAt
  have hl : (buf.take off).length = off := by rw [List.length_take]; omega
  split
  · rename_i hc
    rw [List.append_assoc, List.getElem?_append_right (by omega), hl, List.getElem?_append_left (by omega)]
  · rename_i hc
    by_cases h1 : i < off
    · rw [List.append_assoc, List.getElem?_append_left (by omega), List.getElem?_take, if_pos h1]
    · rw [List.getElem?_append_right (by simp only [List.length_append, hl]; omega), List.getElem?_drop]
      simp only [List.length_append, hl]
      congr 1
      omega

/-- Writing one range leaves a disjoint one alone. -/
theorem bytesAt_writeAt_other {buf bs : Bytes} {off o n : Nat} (h : off + bs.length ≤ buf.length) (hd : o + n ≤ off ∨ off + bs.length ≤ o) :
    bytesAt (writeAt buf off bs) o n = bytesAt buf o n := by
  apply List.ext_getElem?
  intro i
  rw [bytesAt_get, bytesAt_get]
  split
  · rw [writeAt_get h, if_neg (by omega)]
  · rfl

theorem bytesAt_writeAt_same {buf bs : Bytes} {off : Nat} (h : off + bs.length ≤ buf.length) : bytesAt (writeAt buf off bs) off bs.length = bs := by
  apply List.ext_getElem?
  intro i
  rw [bytesAt_get]
  split
  · rw [writeAt_get h, if_pos (by omega), Nat.add_sub_cancel_left]
  · rename_i hi
    rw [List.getElem?_eq_none (by omega)]

theorem slice_eq (b : Bytes) (o n : Nat) : slice b o n = bytesAt b o n := rfl

theorem bytesAt_length {b : Bytes} {o n : Nat} (h : o + n ≤ b.length) : (bytesAt b o n).length = n := by
  unfold bytesAt
  rw [List.length_take, List.length_drop]; omega

theorem put64_length (bo : ByteOrder) (x : BitVec 64) : (bo.put64 x).length = 8 := by
  cases bo <;> rfl

theorem separate_unique {ms : List Member} (h : Separate ms) {a b : Member} (ha : a ∈ ms) (hb : b ∈ ms) (hn : a.name = b.name) : a = b := by
  unfold Separate at h
  induction ms with
  | nil => cases ha
  | cons x xs ih =>
    rw [List.pairwise_cons] at h
    rcases List.mem_cons.mp ha with ea | ia
    · rcases List.mem_cons.mp hb with eb | ib
      · rw [ea, eb]
      · rw [ea] at hn; exact absurd hn (h.1 b ib).1
    · rcases List.mem_cons.mp hb with eb | ib
      · rw [eb] at hn; exact absurd hn.symm (h.1 a ia).1
      · exact ih h.2 ia ib

theorem separate_disjoint {ms : List Member} (h : Separate ms) {a b : Member} (ha : a ∈ ms) (hb : b ∈ ms) (hn : a.name ≠ b.name) :
    Member.stop a ≤ b.offset ∨ Member.stop b ≤ a.offset := by
  unfold Separate at h
  induction ms with
  | nil => cases ha
  | cons x xs ih =>
    rw [List.pairwise_cons] at h
    rcases List.mem_cons.mp ha with ea | ia
    · rcases List.mem_cons.mp hb with eb | ib
      · rw [ea, eb] at hn; exact absurd rfl hn
      · rw [ea]; exact (h.1 b ib).2
    · rcases List.mem_cons.mp hb with eb | ib
      · rw [eb]; exact (h.1 a ia).2.symm
      · exact ih h.2 ia ib

theorem layout_ok {m : Member} {n : Nat} (h : layout m = .ok n) : m.size = some n ∧ m.bitfieldSize = 0 := by
  unfold layout at h
  split at h
  · cases h
  · split at h
    · cases h
    · cases h; exact ⟨by assumption, by omega⟩

section
variable {bo : ByteOrder} {kern : Struct} {kSize kOff : Nat} {data : Bytes} {progs : List Prog} {prog : Bytes → Option Nat}

/-- Extending what has been carried over by a member the kernel does not have. -/
theorem carries_missing {nm : Bytes} {sz : Nat} {done : List Member} {m : Member} {val : Bytes} (h : Carries bo ⟨nm, sz, done⟩ kern kSize kOff data prog val)
    (hm : ∀ km ∈ kern.members, m.name ≠ km.name) (hz : ∀ c ∈ bytesAt data m.offset (m.size.getD 0), c = 0#8) : Carries bo ⟨nm, sz, done ++ [m]⟩ kern kSize kOff data prog val where
  size := h.size
  carried x hx km hk hn hs := by
    rcases List.mem_append.mp hx with hx | hx
    · exact h.carried x hx km hk hn hs
    · simp only [List.mem_singleton] at hx; subst hx; exact absurd hn (hm km hk)
  sizes x hx km hk hn hp := by
    rcases List.mem_append.mp hx with hx | hx
    · exact h.sizes x hx km hk hn hp
    · simp only [List.mem_singleton] at hx; subst hx; exact absurd hn (hm km hk)
  missing x hx hno := by
    rcases List.mem_append.mp hx with hx | hx
    · exact h.missing x hx hno
    · simp only [List.mem_singleton] at hx; subst hx; exact hz
  rest i hi hr := h.rest i hi fun x hx => hr x (List.mem_append_left _ hx)

/-- Extending it by a member the kernel has, the other bytes staying as they are. -/
theorem carries_carried {nm : Bytes} {sz : Nat} {done : List Member} {m km : Member} {val val' : Bytes} (h : Carries bo ⟨nm, sz, done⟩ kern kSize kOff data prog val)
    (hsep : Separate kern.members) (hkm : km ∈ kern.members) (hn : m.name = km.name) (hnew : ∀ x ∈ done, x.name ≠ m.name) (hl : val'.length = val.length)
    (hout : ∀ i, i < kOff + km.offset ∨ kOff + Member.stop km ≤ i → val'[i]? = val[i]?) (hin : m.size = km.size → bytesAt val' (kOff + km.offset) (km.size.getD 0) = memberValue bo data prog m)
    (hs : m.kind.isPointer = false → m.size = km.size) : Carries bo ⟨nm, sz, done ++ [m]⟩ kern kSize kOff data prog val' where
  size := by rw [hl]; exact h.size
  carried x hx k hk hxn hxs := by
    rcases List.mem_append.mp hx with hx | hx
    · rw [← h.carried x hx k hk hxn hxs]
      have hd := separate_disjoint hsep hk hkm (by rw [← hxn, ← hn]; exact hnew x hx)
      apply List.ext_getElem?
      intro i
      rw [bytesAt_get, bytesAt_get]
      split
      · apply hout
        have e1 : Member.stop k = k.offset + k.size.getD 0 := rfl
        have e2 : Member.stop km = km.offset + km.size.getD 0 := rfl
        omega
      · rfl
    · simp only [List.mem_singleton] at hx; subst hx
      have : k = km := separate_unique hsep hk hkm (by rw [← hxn, hn])
      subst this
      exact hin hxs
  sizes x hx k hk hxn hp := by
    rcases List.mem_append.mp hx with hx | hx
    · exact h.sizes x hx k hk hxn hp
    · simp only [List.mem_singleton] at hx; subst hx
      have : k = km := separate_unique hsep hk hkm (by rw [← hxn, hn])
      subst this
      exact hs hp
  missing x hx hno := by
    rcases List.mem_append.mp hx with hx | hx
    · exact h.missing x hx hno
    · simp only [List.mem_singleton] at hx; subst hx; exact absurd hn (hno km hkm)
  rest i hi hr := by
    rw [hout i]
    · exact h.rest i hi fun x hx => hr x (List.mem_append_left _ hx)
    · exact hr m (List.mem_append_right _ (List.mem_singleton.mpr rfl)) km hkm hn

/-- The bytes of a kernel member not carried over yet are zero. -/
theorem carries_untouched {nm : Bytes} {sz : Nat} {done : List Member} {m km : Member} {val : Bytes} (h : Carries bo ⟨nm, sz, done⟩ kern kSize kOff data prog val)
    (hsep : Separate kern.members) (hkm : km ∈ kern.members) (hn : m.name = km.name) (hnew : ∀ x ∈ done, x.name ≠ m.name) (hfit : kOff + Member.stop km ≤ kSize) :
    bytesAt val (kOff + km.offset) (km.size.getD 0) = List.replicate (km.size.getD 0) 0#8 := by
  have e2 : Member.stop km = km.offset + km.size.getD 0 := rfl
  apply List.ext_getElem?
  intro i
  rw [bytesAt_get, List.getElem?_replicate]
  split
  · rw [h.rest _ (by omega)]
    intro x hx k hk hxn
    have hd := separate_disjoint hsep hk hkm (by rw [← hxn, ← hn]; exact hnew x hx)
    have e1 : Member.stop k = k.offset + k.size.getD 0 := rfl
    omega
  · rfl

/-- The loop over the programs writes the descriptor, or nothing. -/
theorem populateProgs_spec {k : Bytes} {km : Member} : ∀ (ps : List Prog) (val val' : Bytes), populateProgs bo k km kOff ps val = .ok (some val') → ∀ (fd : Option Nat),
    (∀ p ∈ ps, p.attachTo = k → p.fd = fd) →
    ((∀ p ∈ ps, p.attachTo ≠ k) ∧ val' = val) ∨
    (∃ d, fd = some d ∧ km.size = some 8 ∧ kOff + km.offset + 8 ≤ val.length ∧ val'.length = val.length ∧ bytesAt val' (kOff + km.offset) 8 = bo.put64 (BitVec.ofNat 64 d) ∧
      ∀ i, i < kOff + km.offset ∨ kOff + km.offset + 8 ≤ i → val'[i]? = val[i]?) := by
  intro ps
  induction ps with
  | nil => intro val val' h fd hf; simp only [populateProgs, Except.ok.injEq, Option.some.injEq] at h; exact Or.inl ⟨by simp, h.symm⟩
  | cons p ps ih =>
    intro val val' h fd hf
    rw [populateProgs] at h
    split at h
    · rename_i hp
      have hfd := hf p List.mem_cons_self hp
      cases hpf : p.fd with
      | none => rw [hpf] at h; simp at h
      | some d =>
        rw [hpf] at h hfd
        simp only at h
        cases hv : populateValue bo km val kOff d with
        | error e => rw [hv] at h; simp at h
        | ok w =>
          rw [hv] at h
          simp only at h
          have hw : km.size = some 8 ∧ kOff + km.offset + 8 ≤ val.length ∧ w = writeAt val (kOff + km.offset) (bo.put64 (BitVec.ofNat 64 d)) := by
            unfold populateValue at hv
            split at hv
            · cases hv
            · split at hv
              · cases hv
              · split at hv
                · cases hv
                · rename_i n heq
                  split at hv
                  · cases hv
                  · rename_i hc
                    cases hv
                    rw [not_or] at hc
                    obtain ⟨c1, c2⟩ := hc
                    have c3 := Decidable.not_not.mp c2
                    subst c3
                    exact ⟨(layout_ok heq).1, by omega, rfl⟩
          obtain ⟨w1, w2, w3⟩ := hw
          have hlen : kOff + km.offset + (bo.put64 (BitVec.ofNat 64 d)).length ≤ val.length := by rw [put64_length]; exact w2
          have hwl : w.length = val.length := by rw [w3]; exact writeAt_length hlen
          have hwin : bytesAt w (kOff + km.offset) 8 = bo.put64 (BitVec.ofNat 64 d) := by
            rw [w3]
            have := bytesAt_writeAt_same hlen
            rw [put64_length] at this
            exact this
          have hwout : ∀ i, i < kOff + km.offset ∨ kOff + km.offset + 8 ≤ i → w[i]? = val[i]? := by
            intro i hi
            rw [w3, writeAt_get hlen, put64_length, if_neg (by omega)]
          right
          rcases ih w val' h fd (fun q hq => hf q (List.mem_cons_of_mem _ hq)) with ⟨_, he⟩ | ⟨d', g1, g2, g3, g4, g5, g6⟩
          · subst he
            exact ⟨d, hfd.symm, w1, w2, hwl, hwin, hwout⟩
          · rw [← hfd] at g1
            cases g1
            exact ⟨d, hfd.symm, w1, w2, by rw [g4, hwl], g5, fun i hi => by rw [g6 i hi, hwout i hi]⟩
    · rename_i hp
      rcases ih val val' h fd (fun q hq => hf q (List.mem_cons_of_mem _ hq)) with ⟨h1, h2⟩ | h
      · left
        refine ⟨fun q hq => ?_, h2⟩
        rcases List.mem_cons.mp hq with hq | hq
        · rw [hq]; exact hp
        · exact h1 q hq
      · exact Or.inr h

theorem validatePair_ok {m km : Member} {n : Nat} (h : validatePair m km = .ok n) : m.size = some n ∧ km.size = some n ∧ sameType m.kind km.kind = true := by
  unfold validatePair at h
  split at h
  · cases h
  · cases h
  · rename_i a b h1 h2
    split at h
    · cases h
    · rename_i hab
      split at h
      · cases h
        have := Decidable.not_not.mp hab
        subst this
        exact ⟨(layout_ok h1).1, (layout_ok h2).1, by assumption⟩
      · cases h

theorem zero_of_isZeroed {b : Bytes} (h : isZeroed b = true) : ∀ c ∈ b, c = 0#8 := by
  intro c hc
  unfold isZeroed at h
  have := List.all_eq_true.mp h c hc
  simpa using this

theorem eq_replicate_of_zero {b : Bytes} (h : ∀ c ∈ b, c = 0#8) : b = List.replicate b.length 0#8 := List.eq_replicate_iff.mpr ⟨rfl, h⟩

theorem populateMembers_spec (hsep : Separate kern.members) (hfit : ∀ km ∈ kern.members, kOff + Member.stop km ≤ kSize) (ha : Assigned progs kern.name prog) (nm : Bytes) (sz : Nat) :
    ∀ (ms done : List Member) (val val' : Bytes), (∀ m ∈ ms, m.kind.isPointer = true → m.size = some 8) → ((done ++ ms).map (·.name)).Nodup → Carries bo ⟨nm, sz, done⟩ kern kSize kOff data prog val →
    populateMembers bo kern kOff data progs ms val = .ok (some val') → Carries bo ⟨nm, sz, done ++ ms⟩ kern kSize kOff data prog val' := by
  intro ms
  induction ms with
  | nil =>
    intro done val val' _ _ hc h
    simp only [populateMembers, Except.ok.injEq, Option.some.injEq] at h
    rw [List.append_nil, ← h]; exact hc
  | cons m ms ih =>
    intro done val val' hp8 hnd hc h
    have happ : done ++ m :: ms = (done ++ [m]) ++ ms := by simp
    have hnew : ∀ x ∈ done, x.name ≠ m.name := by
      intro x hx
      rw [List.map_append, List.map_cons] at hnd
      have := (List.nodup_append.mp hnd).2.2
      exact this x.name (List.mem_map_of_mem hx) m.name List.mem_cons_self
    rw [populateMembers] at h
    rw [happ] at hnd ⊢
    split at h
    · rename_i hf
      have hno : ∀ km ∈ kern.members, m.name ≠ km.name := by
        intro km hkm e
        have := List.find?_eq_none.mp hf km hkm
        simp [e] at this
      cases hmm : missingMember m data with
      | error e => rw [hmm] at h; cases h
      | ok u =>
        rw [hmm] at h
        refine ih (done ++ [m]) val val' (fun x hx => hp8 x (List.mem_cons_of_mem _ hx)) hnd (carries_missing hc hno ?_) h
        unfold missingMember at hmm
        split at hmm
        · cases hmm
        · rename_i n hn
          split at hmm
          · cases hmm
          · split at hmm
            · rename_i hz
              rw [hn]
              exact zero_of_isZeroed hz
            · cases hmm
    · rename_i km hf
      have hkm : km ∈ kern.members := List.mem_of_find?_eq_some hf
      have hkn : m.name = km.name := by have := List.find?_some hf; simpa [eq_comm] using this
      have hfitk := hfit km hkm
      split at h
      · rename_i hptr
        cases hpp : populateProgs bo (key kern.name m.name) km kOff progs val with
        | error e => rw [hpp] at h; cases h
        | ok o =>
          cases o with
          | none => rw [hpp] at h; cases h
          | some w =>
            rw [hpp] at h
            simp only at h
            refine ih (done ++ [m]) w val' (fun x hx => hp8 x (List.mem_cons_of_mem _ hx)) hnd ?_ h
            have hm8 := hp8 m List.mem_cons_self hptr
            have hkind : ∃ f, m.kind = .pointer f := by
              cases hk : m.kind with
              | pointer f => exact ⟨f, rfl⟩
              | struct => rw [hk] at hptr; cases hptr
              | union => rw [hk] at hptr; cases hptr
              | other t => rw [hk] at hptr; cases hptr
            obtain ⟨f, hkind⟩ := hkind
            rcases populateProgs_spec progs val w hpp (prog m.name) (ha m.name).1 with ⟨h1, h2⟩ | ⟨d, g1, g2, g3, g4, g5, g6⟩
            · subst h2
              refine carries_carried hc hsep hkm hkn hnew rfl (fun _ _ => rfl) ?_ (fun h => by rw [hptr] at h; cases h)
              intro hs
              have hnone := (ha m.name).2 h1
              rw [carries_untouched hc hsep hkm hkn hnew hfitk]
              unfold memberValue
              rw [hkind]
              simp only [hnone, hs]
            · refine carries_carried hc hsep hkm hkn hnew g4 ?_ ?_ (fun h => by rw [hptr] at h; cases h)
              · intro i hi
                apply g6
                have e2 : Member.stop km = km.offset + km.size.getD 0 := rfl
                rw [g2] at e2
                simp only [Option.getD_some] at e2
                omega
              · intro _
                rw [g2]
                simp only [Option.getD_some]
                rw [g5]
                unfold memberValue
                rw [hkind]
                simp only [g1]
      · rename_i hptr
        have hptr' : m.kind.isPointer = false := by simpa using hptr
        cases hcp : copyMember m km data val kOff with
        | error e => rw [hcp] at h; cases h
        | ok w =>
          rw [hcp] at h
          simp only at h
          refine ih (done ++ [m]) w val' (fun x hx => hp8 x (List.mem_cons_of_mem _ hx)) hnd ?_ h
          unfold copyMember at hcp
          cases hvp : validatePair m km with
          | error e => rw [hvp] at hcp; cases hcp
          | ok n =>
            rw [hvp] at hcp
            simp only at hcp
            obtain ⟨v1, v2, v3⟩ := validatePair_ok hvp
            have e2 : Member.stop km = km.offset + n := by show km.offset + km.size.getD 0 = _; rw [v2]; rfl
            have hmv : memberValue bo data prog m = bytesAt data m.offset n := by
              unfold memberValue
              cases hk : m.kind with
              | pointer f => rw [hk] at hptr'; cases hptr'
              | struct => simp only [v1, Option.getD_some]
              | union => simp only [v1, Option.getD_some]
              | other t => simp only [v1, Option.getD_some]
            unfold copyBytes at hcp
            split at hcp
            · cases hcp
            · split at hcp
              · cases hcp
              · rename_i c1 c2
                split at hcp
                · cases hcp
                · rename_i c3
                  split at hcp
                  · split at hcp
                    · rename_i hz
                      cases hcp
                      refine carries_carried hc hsep hkm hkn hnew rfl (fun _ _ => rfl) ?_ (fun _ => by rw [v1, v2])
                      intro _
                      rw [carries_untouched hc hsep hkm hkn hnew hfitk, hmv, v2]
                      rw [slice_eq] at hz
                      rw [eq_replicate_of_zero (zero_of_isZeroed hz), bytesAt_length (by omega)]
                      rfl
                    · cases hcp
                  · cases hcp
                    have hbl : (slice data m.offset n).length = n := bytesAt_length (by omega)
                    have hlen : kOff + km.offset + (slice data m.offset n).length ≤ val.length := by rw [hbl]; omega
                    refine carries_carried hc hsep hkm hkn hnew (writeAt_length hlen) ?_ ?_ (fun _ => by rw [v1, v2])
                    · intro i hi
                      rw [writeAt_get hlen, hbl, if_neg (by omega)]
                    · intro _
                      rw [hmv, v2]
                      have := bytesAt_writeAt_same hlen
                      rw [hbl] at this
                      exact this

end

/-- **C75.** If populating a struct_ops map succeeds, the value put into it has each member of the user's struct at the place of the kernel's member of that name, pointers being descriptors of programs; members
unknown to the kernel were zero, and all other bytes are zero. `prog` says which program each member has been assigned.

Partial: requires that the assignment of programs to members is unambiguous (`Assigned`): see `programs_assigned_partial`. -/
theorem populate_carries_partial (bo : ByteOrder) (user kern : Struct) (kSize kOff : Nat) (data : Bytes) (progs : List Prog) (prog : Bytes → Option Nat) (val : Bytes)
    (hsep : Separate kern.members) (hfit : ∀ km ∈ kern.members, kOff + Member.stop km ≤ kSize) (hnd : (user.members.map (·.name)).Nodup)
    (hptr : ∀ m ∈ user.members, m.kind.isPointer = true → m.size = some 8) (ha : Assigned progs kern.name prog)
    (h : populate bo user kern kSize kOff data progs = .ok (some val)) : Carries bo user kern kSize kOff data prog val := by
  unfold populate at h
  split at h
  · cases h
  · have := populateMembers_spec (data := data) hsep hfit ha user.name user.size user.members [] (List.replicate kSize 0#8) val hptr (by simpa using hnd) ?_ h
    · simpa using this
    · refine ⟨by simp, ?_, ?_, ?_, ?_⟩
      · intro m hm; cases hm
      · intro m hm; cases hm
      · intro m hm; cases hm
      · intro i hi _
        rw [List.getElem?_replicate, if_pos hi]

/-! ## which program -/

theorem key_inj {a b a' b' : Bytes} (h1 : 0x3a#8 ∉ a) (h2 : 0x3a#8 ∉ a') (h : key a b = key a' b') : a = a' ∧ b = b' := by
  unfold key at h
  induction a generalizing a' with
  | nil =>
    cases a' with
    | nil => simpa using h
    | cons x xs => simp only [List.nil_append, List.cons_append, List.append_assoc, List.cons.injEq] at h; exact absurd List.mem_cons_self (h.1 ▸ h2)
  | cons y ys ih =>
    cases a' with
    | nil => simp only [List.nil_append, List.cons_append, List.append_assoc, List.cons.injEq] at h; exact absurd List.mem_cons_self (h.1 ▸ h1)
    | cons x xs =>
      simp only [List.cons_append, List.cons.injEq] at h
      obtain ⟨g1, g2⟩ := ih (fun h => h1 (List.mem_cons_of_mem _ h)) (fun h => h2 (List.mem_cons_of_mem _ h)) h.2
      exact ⟨by rw [h.1, g1], g2⟩

/-- The assignments made for one variable. -/
def assigns (relocs : Nat → Option Bytes) (v : Var) : List (Bytes × Bytes) :=
  v.type.members.filterMap fun m => (relocs (v.offset + m.offset)).map fun s => (s, key v.type.name m.name)

/-- All of them, in order. -/
def applyAll (as : List (Bytes × Bytes)) (progs : List Prog) : List Prog := as.foldl (fun ps a => setAttach a.1 a.2 ps) progs

theorem setAttach_find (n to x : Bytes) (progs : List Prog) : ((setAttach n to progs).find? (fun p => p.name = x)).isSome = (progs.find? (fun p => p.name = x)).isSome := by
  unfold setAttach
  induction progs with
  | nil => rfl
  | cons p ps ih =>
    have hnm : (if p.name = n then { p with attachTo := to } else p).name = p.name := by split <;> rfl
    rw [List.map_cons, List.find?_cons, List.find?_cons, hnm]
    split
    · rfl
    · exact ih

theorem setAttachTo_spec (relocs : Nat → Option Bytes) (base : Nat) (st : Bytes) : ∀ (ms : List Member) (progs progs' : List Prog), setAttachTo relocs base st ms progs = .ok progs' →
    progs' = applyAll (ms.filterMap fun m => (relocs (base + m.offset)).map fun s => (s, key st m.name)) progs ∧
    ∀ m ∈ ms, ∀ s, relocs (base + m.offset) = some s → (progs.find? (fun p => p.name = s)).isSome = true := by
  intro ms
  induction ms with
  | nil => intro progs progs' h; simp only [setAttachTo, Except.ok.injEq] at h; exact ⟨h.symm, by simp⟩
  | cons m ms ih =>
    intro progs progs' h
    rw [setAttachTo] at h
    cases hr : relocs (base + m.offset) with
    | none =>
      rw [hr] at h
      obtain ⟨h1, h2⟩ := ih progs progs' h
      refine ⟨by rw [List.filterMap_cons, hr]; exact h1, ?_⟩
      intro x hx s hs
      rcases List.mem_cons.mp hx with hx | hx
      · rw [hx, hr] at hs; cases hs
      · exact h2 x hx s hs
    | some sym =>
      rw [hr] at h
      simp only at h
      split at h
      · cases h
      · rename_i p hp
        split at h
        · obtain ⟨h1, h2⟩ := ih _ progs' h
          refine ⟨by rw [List.filterMap_cons, hr]; exact h1, ?_⟩
          intro x hx s hs
          rcases List.mem_cons.mp hx with hx | hx
          · rw [hx, hr] at hs; cases hs; rw [hp]; rfl
          · have := h2 x hx s hs
            rwa [setAttach_find] at this
        · cases h

theorem applyAll_append (a b : List (Bytes × Bytes)) (progs : List Prog) : applyAll (a ++ b) progs = applyAll b (applyAll a progs) := by
  unfold applyAll; rw [List.foldl_append]

theorem applyAll_find (as : List (Bytes × Bytes)) (x : Bytes) : ∀ progs : List Prog, ((applyAll as progs).find? (fun p => p.name = x)).isSome = (progs.find? (fun p => p.name = x)).isSome := by
  induction as with
  | nil => intro progs; rfl
  | cons a as ih => intro progs; show ((applyAll as (setAttach a.1 a.2 progs)).find? _).isSome = _; rw [ih, setAttach_find]

theorem associate_spec (relocs : Nat → Option Bytes) : ∀ (vs : List Var) (progs progs' : List Prog), associate relocs vs progs = .ok progs' →
    progs' = applyAll (vs.flatMap (assigns relocs)) progs ∧
    ∀ v ∈ vs, ∀ m ∈ v.type.members, ∀ s, relocs (v.offset + m.offset) = some s → (progs.find? (fun p => p.name = s)).isSome = true := by
  intro vs
  induction vs with
  | nil => intro progs progs' h; simp only [associate, Except.ok.injEq] at h; exact ⟨h.symm, by simp⟩
  | cons v vs ih =>
    intro progs progs' h
    rw [associate] at h
    cases hs : setAttachTo relocs v.offset v.type.name v.type.members progs with
    | error e => rw [hs] at h; cases h
    | ok q =>
      rw [hs] at h
      obtain ⟨h1, h2⟩ := setAttachTo_spec relocs v.offset v.type.name v.type.members progs q hs
      obtain ⟨h3, h4⟩ := ih q progs' h
      refine ⟨?_, ?_⟩
      · rw [List.flatMap_cons, applyAll_append, h3, h1]; rfl
      · intro x hx m hm s hr
        rcases List.mem_cons.mp hx with hx | hx
        · subst hx; exact h2 m hm s hr
        · have := h4 x hx m hm s hr
          rwa [h1, applyAll_find] at this

/-- After the assignments a program is attached to what the last assignment with its name says, or as before. -/
theorem applyAll_mem (as : List (Bytes × Bytes)) : ∀ (progs : List Prog) (p' : Prog), p' ∈ applyAll as progs →
    ∃ p ∈ progs, p'.name = p.name ∧ p'.fd = p.fd ∧ ((p.name, p'.attachTo) ∈ as ∨ ((∀ k, (p.name, k) ∉ as) ∧ p'.attachTo = p.attachTo)) := by
  induction as with
  | nil => intro progs p' h; exact ⟨p', h, rfl, rfl, Or.inr ⟨by simp, rfl⟩⟩
  | cons a as ih =>
    intro progs p' h
    have h : p' ∈ applyAll as (setAttach a.1 a.2 progs) := h
    obtain ⟨q, hq, h1, h2, h3⟩ := ih _ p' h
    unfold setAttach at hq
    obtain ⟨p, hp, rfl⟩ := List.mem_map.mp hq
    refine ⟨p, hp, ?_⟩
    by_cases hn : p.name = a.1
    · simp only [hn, if_true] at h1 h2 h3 ⊢
      refine ⟨h1, h2, Or.inl ?_⟩
      rcases h3 with h3 | ⟨_, h4⟩
      · exact List.mem_cons_of_mem _ h3
      · rw [h4]; exact List.mem_cons_self
    · simp only [if_neg hn] at h1 h2 h3 ⊢
      refine ⟨h1, h2, ?_⟩
      rcases h3 with h3 | ⟨h4, h5⟩
      · exact Or.inl (List.mem_cons_of_mem _ h3)
      · refine Or.inr ⟨fun k hk => ?_, h5⟩
        rcases List.mem_cons.mp hk with hk | hk
        · exact hn (by rw [← hk])
        · exact h4 k hk

/-- Every program is still there. -/
theorem applyAll_mem_of (as : List (Bytes × Bytes)) : ∀ (progs : List Prog) (p : Prog), p ∈ progs → ∃ p' ∈ applyAll as progs, p'.name = p.name := by
  induction as with
  | nil => intro progs p h; exact ⟨p, h, rfl⟩
  | cons a as ih =>
    intro progs p h
    obtain ⟨p', h1, h2⟩ := ih (setAttach a.1 a.2 progs) (if p.name = a.1 then { p with attachTo := a.2 } else p) (by unfold setAttach; exact List.mem_map_of_mem h)
    refine ⟨p', h1, ?_⟩
    rw [h2]
    split <;> rfl

theorem find_unique {progs : List Prog} (hnd : (progs.map (·.name)).Nodup) {p : Prog} (hp : p ∈ progs) : progs.find? (fun q => q.name = p.name) = some p := by
  induction progs with
  | nil => cases hp
  | cons q qs ih =>
    rw [List.map_cons, List.nodup_cons] at hnd
    rw [List.find?_cons]
    rcases List.mem_cons.mp hp with hp | hp
    · rw [hp]; simp
    · have : q.name ≠ p.name := by intro e; exact hnd.1 (e ▸ List.mem_map_of_mem hp)
      simp only [this, decide_false]
      exact ih hnd.2 hp

theorem find_member_unique {ms : List Member} (hnd : (ms.map (·.name)).Nodup) {m : Member} (hm : m ∈ ms) : ms.find? (fun q => q.name = m.name) = some m := by
  induction ms with
  | nil => cases hm
  | cons q qs ih =>
    rw [List.map_cons, List.nodup_cons] at hnd
    rw [List.find?_cons]
    rcases List.mem_cons.mp hm with hm | hm
    · rw [hm]; simp
    · have : q.name ≠ m.name := by intro e; exact hnd.1 (e ▸ List.mem_map_of_mem hm)
      simp only [this, decide_false]
      exact ih hnd.2 hm

/-- **C75.** After reading an object, each member of a struct_ops variable is assigned the program its relocation names, and members without relocation none.

Partial: requires that no two struct_ops variables have the same type, and that no program is used for two members; see `two_maps_same_type` and `program_used_twice`. -/
theorem programs_assigned_partial (relocs : Nat → Option Bytes) (vars : List Var) (progs progs' : List Prog) (hnd : (progs.map (·.name)).Nodup)
    (hmem : ∀ v ∈ vars, (v.type.members.map (·.name)).Nodup) (hcolon : ∀ v ∈ vars, 0x3a#8 ∉ v.type.name) (hinit : ∀ p ∈ progs, 0x3a#8 ∉ p.attachTo)
    (honeType : ∀ v ∈ vars, ∀ w ∈ vars, v.type.name = w.type.name → v = w)
    (honeUse : ∀ v ∈ vars, ∀ m ∈ v.type.members, ∀ w ∈ vars, ∀ n ∈ w.type.members, ∀ s, relocs (v.offset + m.offset) = some s → relocs (w.offset + n.offset) = some s → v = w ∧ m = n)
    (h : associate relocs vars progs = .ok progs') (v : Var) (hv : v ∈ vars) : Assigned progs' v.type.name (intended relocs progs v) := by
  obtain ⟨h1, h2⟩ := associate_spec relocs vars progs progs' h
  have hmemAs : ∀ s k, (s, k) ∈ vars.flatMap (assigns relocs) → ∃ w ∈ vars, ∃ m ∈ w.type.members, relocs (w.offset + m.offset) = some s ∧ k = key w.type.name m.name := by
    intro s k hk
    obtain ⟨w, hw, hk⟩ := List.mem_flatMap.mp hk
    unfold assigns at hk
    obtain ⟨m, hm, hk⟩ := List.mem_filterMap.mp hk
    cases hr : relocs (w.offset + m.offset) with
    | none => rw [hr] at hk; cases hk
    | some s' =>
      rw [hr] at hk
      cases hk
      exact ⟨w, hw, m, hm, hr, rfl⟩
  have hnc : ∀ (st n : Bytes), 0x3a#8 ∈ st ++ [0x3a#8] ++ n := by intro st n; simp
  intro n
  refine ⟨?_, ?_⟩
  · intro p' hp' hat
    rw [h1] at hp'
    obtain ⟨p, hp, e1, e2, e3⟩ := applyAll_mem _ _ _ hp'
    rcases e3 with e3 | ⟨_, e4⟩
    · obtain ⟨w, hw, m, hm, hr, hk⟩ := hmemAs _ _ e3
      rw [hat] at hk
      obtain ⟨k1, k2⟩ := key_inj (hcolon v hv) (hcolon w hw) hk
      have := honeType v hv w hw k1
      subst this
      subst k2
      rw [e2]
      unfold intended
      rw [find_member_unique (hmem v hv) hm]
      simp only [hr]
      rw [find_unique hnd hp]
      rfl
    · rw [e4] at hat
      exact absurd (hat ▸ hnc v.type.name n) (hinit p hp)
  · intro hno
    unfold intended
    split
    · rfl
    · rename_i m hm
      have hmm : m ∈ v.type.members := List.mem_of_find?_eq_some hm
      have hmn : m.name = n := by simpa using List.find?_some hm
      split
      · rfl
      · rename_i s hr
        exfalso
        have hs := h2 v hv m hmm s hr
        obtain ⟨p, hp⟩ := Option.isSome_iff_exists.mp hs
        have hpm := List.mem_of_find?_eq_some hp
        have hpn : p.name = s := by simpa using List.find?_some hp
        obtain ⟨p', hp', hn'⟩ := applyAll_mem_of (vars.flatMap (assigns relocs)) progs p hpm
        obtain ⟨q, hq, e1, _, e3⟩ := applyAll_mem _ _ _ hp'
        have hqn : q.name = s := by rw [← e1, hn', hpn]
        have hself : (s, key v.type.name m.name) ∈ vars.flatMap (assigns relocs) := by
          refine List.mem_flatMap.mpr ⟨v, hv, ?_⟩
          unfold assigns
          exact List.mem_filterMap.mpr ⟨m, hmm, by rw [hr]; rfl⟩
        rw [hqn] at e3
        rcases e3 with e3 | ⟨e3, _⟩
        · obtain ⟨w, hw, m', hm', hr', hk⟩ := hmemAs _ _ e3
          obtain ⟨g1, g2⟩ := honeUse v hv m hmm w hw m' hm' s hr hr'
          subst g1; subst g2
          refine hno p' (by rw [h1]; exact hp') ?_
          rw [hk, hmn]; rfl
        · exact e3 _ hself

/-- **C75, from object to kernel.** -/
theorem structOps_partial (bo : ByteOrder) (relocs : Nat → Option Bytes) (vars : List Var) (progs progs' : List Prog) (hnd : (progs.map (·.name)).Nodup)
    (hmem : ∀ v ∈ vars, (v.type.members.map (·.name)).Nodup) (hcolon : ∀ v ∈ vars, 0x3a#8 ∉ v.type.name) (hinit : ∀ p ∈ progs, 0x3a#8 ∉ p.attachTo)
    (honeType : ∀ v ∈ vars, ∀ w ∈ vars, v.type.name = w.type.name → v = w)
    (honeUse : ∀ v ∈ vars, ∀ m ∈ v.type.members, ∀ w ∈ vars, ∀ n ∈ w.type.members, ∀ s, relocs (v.offset + m.offset) = some s → relocs (w.offset + n.offset) = some s → v = w ∧ m = n)
    (h : associate relocs vars progs = .ok progs') (v : Var) (hv : v ∈ vars) (kern : Struct) (hname : kern.name = v.type.name) (kSize kOff : Nat) (data val : Bytes)
    (hsep : Separate kern.members) (hfit : ∀ km ∈ kern.members, kOff + Member.stop km ≤ kSize) (hptr : ∀ m ∈ v.type.members, m.kind.isPointer = true → m.size = some 8)
    (hp : populate bo v.type kern kSize kOff data progs' = .ok (some val)) : Carries bo v.type kern kSize kOff data (intended relocs progs v) val := by
  refine populate_carries_partial bo v.type kern kSize kOff data progs' _ val hsep hfit (hmem v hv) hptr ?_ hp
  rw [hname]
  exact programs_assigned_partial relocs vars progs progs' hnd hmem hcolon hinit honeType honeUse h v hv

/-! ## concrete cases -/

/-- `struct ops { int flags; void (*run)(); }`, as compiled; the kernel's has the members in another order and one more. -/
def exUser : Struct := ⟨[1#8], 16, [⟨[10#8], 0, 0, some 4, .other 0⟩, ⟨[11#8], 8, 0, some 8, .pointer true⟩]⟩
/-- See `exUser`. -/
def exKern : Struct := ⟨[1#8], 24, [⟨[11#8], 0, 0, some 8, .pointer true⟩, ⟨[12#8], 8, 0, some 8, .pointer true⟩, ⟨[10#8], 16, 0, some 4, .other 0⟩]⟩
/-- A program. -/
def exProg (n : Byte) (fd : Nat) : Prog := ⟨[n], [], true, some fd⟩
/-- The variable at offset 0 uses program 20. -/
def exRelocs : Nat → Option Bytes := fun o => if o = 8 then some [20#8] else if o = 24 then some [21#8] else none
/-- Contents of a section with two such variables. -/
def exData : Bytes := [7#8, 0#8, 0#8, 0#8] ++ List.replicate 12 0#8

/-- The hypotheses of `structOps_partial` are met, and the value is as expected. -/
example : ∃ progs' val, associate exRelocs [⟨exUser, 0⟩] [exProg 20#8 5, exProg 21#8 6] = .ok progs' ∧ populate .little exUser exKern 40 8 exData progs' = .ok (some val) ∧
    Separate exKern.members ∧ (∀ km ∈ exKern.members, 8 + Member.stop km ≤ 40) ∧ (∀ m ∈ exUser.members, m.kind.isPointer = true → m.size = some 8) ∧ val.length = 40 ∧
    bytesAt val 8 8 = ByteOrder.little.put64 5#64 ∧ bytesAt val 24 4 = [7#8, 0#8, 0#8, 0#8] := by
  refine ⟨_, _, rfl, rfl, ?_, ?_, ?_, ?_, ?_, ?_⟩
  · unfold Separate; decide
  all_goals decide

/-- **C75 fails for two maps of one struct type.** The second variable's program has the same key as the first's, and each map gets whichever program comes last in the iteration: here the map of the
first variable, which names program 20 (descriptor 5), holds the descriptor of program 21. -/
theorem two_maps_same_type : ∃ progs' val, associate exRelocs [⟨exUser, 0⟩, ⟨exUser, 16⟩] [exProg 20#8 5, exProg 21#8 6] = .ok progs' ∧
    populate .little exUser exKern 40 8 exData progs' = .ok (some val) ∧ intended exRelocs [exProg 20#8 5, exProg 21#8 6] ⟨exUser, 0⟩ [11#8] = some 5 ∧
    bytesAt val 8 8 = ByteOrder.little.put64 6#64 := by
  refine ⟨_, _, rfl, rfl, ?_, ?_⟩ <;> decide

/-- The struct with two function pointers. -/
def exTwo : Struct := ⟨[1#8], 16, [⟨[11#8], 0, 0, some 8, .pointer true⟩, ⟨[12#8], 8, 0, some 8, .pointer true⟩]⟩

/-- **C75 fails for a program used for two members.** The first of the members stays null, and no error is reported. -/
theorem program_used_twice : ∃ progs' val, associate (fun _ => some [20#8]) [⟨exTwo, 0⟩] [exProg 20#8 5] = .ok progs' ∧
    populate .little exTwo exTwo 16 0 (List.replicate 16 0#8) progs' = .ok (some val) ∧ intended (fun _ => some [20#8]) [exProg 20#8 5] ⟨exTwo, 0⟩ [11#8] = some 5 ∧
    bytesAt val 0 8 = List.replicate 8 0#8 ∧ bytesAt val 8 8 = ByteOrder.little.put64 5#64 := by
  refine ⟨_, _, rfl, rfl, ?_, ?_, ?_⟩ <;> decide

/-- **C75 fails if the program has not been loaded.** Nothing is put into the map and nothing is reported. -/
theorem missing_program_silent (bo : ByteOrder) : ∃ progs', associate (fun _ => some [20#8]) [⟨exTwo, 0⟩] [⟨[20#8], [], true, none⟩] = .ok progs' ∧
    populate bo exTwo exTwo 16 0 (List.replicate 16 0#8) progs' = .ok none := ⟨_, rfl, rfl⟩

/-! ## when it succeeds -/

theorem isZeroed_iff (b : Bytes) : isZeroed b = true ↔ ∀ c ∈ b, c = 0#8 := by simp [isZeroed]

theorem copyMember_ok (m km : Member) (data val : Bytes) (kOff : Nat) (hm : m.kind.isPointer = false) :
    (∃ v, copyMember m km data val kOff = .ok v) ↔ Copies m km data val.length kOff := by
  unfold copyMember validatePair layout Copies
  by_cases b1 : m.bitfieldSize = 0
  · by_cases b2 : km.bitfieldSize = 0
    · simp only [b1, b2, Nat.lt_irrefl, if_false, true_and]
      cases s1 : m.size with
      | none => simp
      | some n =>
        cases s2 : km.size with
        | none => simp
        | some n' =>
          by_cases hn : n = n'
          · subst hn
            have hk : sameType m.kind km.kind = true ↔ m.kind = km.kind := by
              cases h1 : m.kind <;> simp [sameType, h1, Kind.isPointer] at hm ⊢
            by_cases hkk : m.kind = km.kind
            · have hst := hk.mpr hkk
              have hkt : (m.kind = km.kind) = True := eq_true hkk
              simp only [ne_eq, not_true_eq_false, if_false, hst, if_true, hkt, true_and]
              unfold copyBytes
              by_cases c1 : val.length < kOff
              · simp only [c1, if_true, Option.some.injEq, exists_eq_left']
                constructor
                · rintro ⟨v, hv⟩; cases hv
                · rintro ⟨_, h, _⟩; omega
              · by_cases c2 : data.length < m.offset + n
                · simp only [c1, c2, if_true, if_false, Option.some.injEq, exists_eq_left']
                  constructor
                  · rintro ⟨v, hv⟩; cases hv
                  · rintro ⟨h, _⟩; omega
                · by_cases c3 : val.length - kOff < km.offset + n
                  · simp only [c1, c2, c3, if_true, if_false, Option.some.injEq, exists_eq_left']
                    constructor
                    · rintro ⟨v, hv⟩; cases hv
                    · rintro ⟨_, h, _⟩; omega
                  · simp only [c1, c2, c3, if_false, Option.some.injEq, exists_eq_left', true_and]
                    have g1 : m.offset + n ≤ data.length := by omega
                    have g2 : kOff + km.offset + n ≤ val.length := by omega
                    by_cases hs : m.kind = .struct ∨ m.kind = .union
                    · simp only [hs, if_true]
                      by_cases hz : isZeroed (slice data m.offset n) = true
                      · rw [if_pos hz]
                        exact ⟨fun _ => ⟨g1, g2, fun _ => (isZeroed_iff _).mp hz⟩, fun _ => ⟨val, rfl⟩⟩
                      · rw [if_neg hz]
                        constructor
                        · rintro ⟨v, hv⟩; cases hv
                        · rintro ⟨_, _, h⟩
                          exact (hz ((isZeroed_iff _).mpr (h (by rw [← hkk]; exact hs)))).elim
                    · rw [if_neg hs]
                      exact ⟨fun _ => ⟨g1, g2, fun h => (hs (by rw [hkk]; exact h)).elim⟩, fun _ => ⟨_, rfl⟩⟩
            · have : sameType m.kind km.kind = false := by
                cases h : sameType m.kind km.kind with
                | false => rfl
                | true => exact (hkk (hk.mp h)).elim
              simp [this, hkk]
          · simp [hn]
            intro _ h; exact (hn h.symm).elim
    · have : 0 < km.bitfieldSize := by omega
      cases s1 : m.size <;> simp [b1, b2, this]
  · have : 0 < m.bitfieldSize := by omega
    simp [b1, this]

theorem populateValue_ok (bo : ByteOrder) (km : Member) (val : Bytes) (kOff fd : Nat) :
    (∃ v, populateValue bo km val kOff fd = .ok v) ↔ km.kind = .pointer true ∧ km.bitfieldSize = 0 ∧ km.size = some 8 ∧ kOff + km.offset + 8 ≤ val.length := by
  unfold populateValue layout
  by_cases c1 : val.length < kOff
  · simp only [c1, if_true]
    constructor
    · rintro ⟨v, hv⟩; cases hv
    · rintro ⟨_, _, _, h⟩; omega
  · by_cases hk : km.kind = .pointer true
    · by_cases hb : km.bitfieldSize = 0
      · cases hs : km.size with
        | none => simp [c1, hk, hb]
        | some n =>
          simp only [c1, hk, hb, if_false, ne_eq, not_true_eq_false, Nat.lt_irrefl, true_and, Option.some.injEq]
          by_cases hc : val.length - kOff < km.offset + n ∨ ¬ n = 8
          · rw [if_pos hc]
            constructor
            · rintro ⟨v, hv⟩; cases hv
            · rintro ⟨rfl, h⟩; omega
          · rw [if_neg hc]
            exact ⟨fun _ => by omega, fun _ => ⟨_, rfl⟩⟩
      · have : 0 < km.bitfieldSize := by omega
        simp [c1, hk, hb, this]
    · simp [c1, hk]

theorem populateValue_length {bo : ByteOrder} {km : Member} {val v : Bytes} {kOff fd : Nat} (h : populateValue bo km val kOff fd = .ok v) : v.length = val.length := by
  have hok := (populateValue_ok bo km val kOff fd).mp ⟨v, h⟩
  obtain ⟨h1, h2, h3, h4⟩ := hok
  have c1 : ¬ val.length < kOff := by omega
  have c2 : ¬ val.length - kOff < km.offset + 8 := by omega
  simp [populateValue, layout, c1, h1, h2, h3, c2] at h
  rw [← h, writeAt_length]
  rw [put64_length]; exact h4

theorem populateProgs_ok (bo : ByteOrder) (k : Bytes) (km : Member) (kOff : Nat) : ∀ (ps : List Prog) (val : Bytes),
    ((∃ v, populateProgs bo k km kOff ps val = .ok (some v)) ↔
      ∀ p ∈ ps, p.attachTo = k → p.fd ≠ none ∧ km.kind = .pointer true ∧ km.bitfieldSize = 0 ∧ km.size = some 8 ∧ kOff + km.offset + 8 ≤ val.length) ∧
    ∀ v, populateProgs bo k km kOff ps val = .ok (some v) → v.length = val.length := by
  intro ps
  induction ps with
  | nil => intro val; simp [populateProgs]
  | cons p ps ih =>
    intro val
    unfold populateProgs
    by_cases ha : p.attachTo = k
    · rw [if_pos ha]
      cases hf : p.fd with
      | none => simp [ha, hf]
      | some fd =>
        simp only
        cases hp : populateValue bo km val kOff fd with
        | error e =>
          simp only [List.forall_mem_cons]
          refine ⟨⟨fun ⟨v, hv⟩ => (by cases hv), fun h => ?_⟩, fun v hv => (by cases hv)⟩
          obtain ⟨v, hv⟩ := (populateValue_ok bo km val kOff fd).mpr (h.1 ha).2
          rw [hp] at hv; cases hv
        | ok v =>
          have hl := populateValue_length hp
          obtain ⟨i1, i2⟩ := ih v
          simp only [List.forall_mem_cons]
          rw [hl] at i1 i2
          refine ⟨i1.trans ⟨fun h => ⟨fun _ => ⟨(by simp [hf]), (populateValue_ok bo km val kOff fd).mp ⟨v, hp⟩⟩, h⟩, fun h => h.2⟩, i2⟩
    · rw [if_neg ha]
      simp only [List.forall_mem_cons, ha, false_implies, true_and]
      exact ih val

theorem copyMember_length {m km : Member} {data val v : Bytes} {kOff : Nat} (hm : m.kind.isPointer = false) (h : copyMember m km data val kOff = .ok v) : v.length = val.length := by
  obtain ⟨_, _, _, n, h1, h2, h3, h4, _⟩ := (copyMember_ok m km data val kOff hm).mp ⟨v, h⟩
  unfold copyMember at h
  split at h
  · cases h
  · rename_i n' hv
    obtain ⟨g1, _, _⟩ := validatePair_ok hv
    rw [h1] at g1; cases g1
    unfold copyBytes at h
    rw [if_neg (by omega), if_neg (by omega), if_neg (by omega)] at h
    split at h
    · split at h
      · cases h; rfl
      · cases h
    · cases h
      rw [writeAt_length]
      rw [slice_eq, bytesAt_length h3]; exact h4

theorem populateMembers_ok (bo : ByteOrder) (kern : Struct) (kSize kOff : Nat) (data : Bytes) (progs : List Prog) : ∀ (ms : List Member) (val : Bytes), val.length = kSize →
    ((∃ v, populateMembers bo kern kOff data progs ms val = .ok (some v)) ↔ ∀ m ∈ ms, Acceptable kern kSize kOff data progs m) := by
  intro ms
  induction ms with
  | nil => intro val _; simp [populateMembers]
  | cons m ms ih =>
    intro val hl
    rw [List.forall_mem_cons]
    unfold populateMembers Acceptable
    cases hf : kern.members.find? (fun km => km.name = m.name) with
    | none =>
      simp only
      unfold missingMember
      cases hs : m.size with
      | none => simp
      | some n =>
        by_cases hc : data.length < m.offset + n
        · simp only [hc, if_true, Option.some.injEq, exists_eq_left']
          constructor
          · rintro ⟨v, hv⟩; cases hv
          · rintro ⟨⟨h, _⟩, _⟩; omega
        · simp only [hc, if_false, Option.some.injEq, exists_eq_left']
          by_cases hz : isZeroed (slice data m.offset n) = true
          · simp only [hz, if_true]
            rw [ih val hl]
            exact ⟨fun h => ⟨⟨by omega, (isZeroed_iff _).mp hz⟩, h⟩, fun h => h.2⟩
          · rw [if_neg hz]
            constructor
            · rintro ⟨v, hv⟩; cases hv
            · rintro ⟨⟨_, h⟩, _⟩
              exact (hz ((isZeroed_iff _).mpr h)).elim
    | some km =>
      simp only
      cases hp : m.kind.isPointer with
      | true =>
        simp only [if_true]
        obtain ⟨g1, g2⟩ := populateProgs_ok bo (key kern.name m.name) km kOff progs val
        rw [hl] at g1 g2
        cases hpp : populateProgs bo (key kern.name m.name) km kOff progs val with
        | error e =>
          refine ⟨fun ⟨v, hv⟩ => (by cases hv), fun h => ?_⟩
          obtain ⟨v, hv⟩ := g1.mpr h.1
          rw [hpp] at hv; cases hv
        | ok o =>
          cases o with
          | none =>
            refine ⟨fun ⟨v, hv⟩ => (by cases hv), fun h => ?_⟩
            obtain ⟨v, hv⟩ := g1.mpr h.1
            rw [hpp] at hv; cases hv
          | some v =>
            simp only
            rw [ih v (g2 v hpp)]
            exact ⟨fun h => ⟨g1.mp ⟨v, hpp⟩, h⟩, fun h => h.2⟩
      | false =>
        simp only [Bool.false_eq_true, if_false]
        have g1 := copyMember_ok m km data val kOff hp
        rw [hl] at g1
        cases hc : copyMember m km data val kOff with
        | error e =>
          refine ⟨fun ⟨v, hv⟩ => (by cases hv), fun h => ?_⟩
          obtain ⟨v, hv⟩ := g1.mpr h.1
          rw [hc] at hv; cases hv
        | ok v =>
          simp only
          rw [ih v ((copyMember_length hp hc).trans hl)]
          exact ⟨fun h => ⟨g1.mp ⟨v, hc⟩, h⟩, fun h => h.2⟩

/-- **C75.** A struct_ops map is populated exactly if the data is as large as the struct and every member of it is acceptable. -/
theorem populate_iff (bo : ByteOrder) (user kern : Struct) (kSize kOff : Nat) (data : Bytes) (progs : List Prog) :
    (∃ val, populate bo user kern kSize kOff data progs = .ok (some val)) ↔ user.size ≤ data.length ∧ ∀ m ∈ user.members, Acceptable kern kSize kOff data progs m := by
  unfold populate
  by_cases hs : data.length < user.size
  · rw [if_pos hs]
    exact ⟨fun ⟨v, hv⟩ => (by cases hv), fun h => by omega⟩
  · rw [if_neg hs, populateMembers_ok bo kern kSize kOff data progs user.members _ (by simp)]
    exact ⟨fun h => ⟨by omega, h⟩, fun h => h.2⟩

end Ebpf.StructOps
