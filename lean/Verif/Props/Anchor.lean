import Verif.Spec.Anchor
/-!
# C85: programs attached to one hook
-/
namespace Ebpf.Anchor
open Ebpf.AnchorSpec

theorem findIdx_congr {α : Type} (f g : α → Bool) (l : List α) (h : ∀ e ∈ l, f e = g e) : l.findIdx? f = l.findIdx? g := by
  induction l with
  | nil => rfl
  | cons a r ih =>
    rw [List.findIdx?_cons, List.findIdx?_cons, h a (List.mem_cons_self ..), ih (fun e he => h e (List.mem_cons_of_mem _ he))]

theorem before_eq (p : Ent → Bool) (n : Ent) (l : List Ent) : before p n l = (l.findIdx? p).map (fun i => l.take i ++ n :: l.drop i) := by
  induction l with
  | nil => rfl
  | cons a r ih =>
    rw [List.findIdx?_cons]
    unfold before
    cases p a with
    | true => rfl
    | false => simp [ih, Function.comp_def]

theorem after_eq (p : Ent → Bool) (n : Ent) (l : List Ent) : after p n l = (l.findIdx? p).map (fun i => l.take (i + 1) ++ n :: l.drop (i + 1)) := by
  induction l with
  | nil => rfl
  | cons a r ih =>
    rw [List.findIdx?_cons]
    unfold after
    cases p a with
    | true => simp
    | false => simp [ih, Function.comp_def]

theorem replace_eq (p : Ent → Bool) (n : Ent) (l : List Ent) : replace p n l = (l.findIdx? p).map (fun i => l.set i n) := by
  induction l with
  | nil => rfl
  | cons a r ih =>
    rw [List.findIdx?_cons]
    unfold replace
    cases p a with
    | true => rfl
    | false => simp [ih, Function.comp_def]

theorem findIdx_lt {α : Type} {f : α → Bool} {l : List α} {i : Nat} (h : l.findIdx? f = some i) : i < l.length ∧ ∃ e, l[i]? = some e ∧ f e = true := by
  obtain ⟨hi, hf, _⟩ := List.findIdx?_eq_some_iff_getElem.mp h
  exact ⟨hi, l[i], List.getElem?_eq_getElem hi, hf⟩

/-! ## The kernel, by position -/

theorem insert_before (l : List Ent) (n : Ent) (r : Nat × Option Nat) (hl : l.length < 64) :
    ((posBefore l (some r)).bind fun i => if i ≥ 64 then none else some (ins l n i true)) = before (matches_ r) n l := by
  rw [before_eq]
  unfold posBefore index
  simp only
  cases h : l.findIdx? (matches_ r) with
  | none => rfl
  | some i =>
    have hi := (findIdx_lt h).1
    simp only [Option.map_some, Option.bind_some]
    rw [if_neg (by omega)]
    unfold ins
    rw [if_neg (by omega)]
    simp

theorem insert_after (l : List Ent) (n : Ent) (r : Nat × Option Nat) (hl : l.length < 64) :
    ((posAfter l (some r)).bind fun i => if i ≥ 64 then none else some (ins l n i false)) = after (matches_ r) n l := by
  rw [after_eq]
  unfold posAfter index
  simp only
  cases h : l.findIdx? (matches_ r) with
  | none => rfl
  | some i =>
    have hi := (findIdx_lt h).1
    simp only [Option.map_some, Option.bind_some]
    rw [if_neg (by omega)]
    unfold ins
    simp only [Bool.false_eq_true, if_false, ite_self]
    rfl

/-- A world in which descriptors, links and the list agree. -/
structure Consistent (k : Kern) (l : List Ent) : Prop where
  links : ∀ e ∈ l, ∀ lk, e.link = some lk → k.link lk = some e.prog
  nodup : (l.map Ent.prog).Nodup

/-- What an anchor means. -/
inductive Means (k : Kern) : Anchor → Where → Prop
  | head : Means k Head .head
  | tail : Means k Tail .tail
  | beforeProgram (fd p : Nat) : 0 < fd → fd < 2 ^ 31 → k.progFd fd = some p → Means k (BeforeProgram fd) (.before (fun e => e.prog == p))
  | afterProgram (fd p : Nat) : 0 < fd → fd < 2 ^ 31 → k.progFd fd = some p → Means k (AfterProgram fd) (.after (fun e => e.prog == p))
  | beforeProgramByID (p : Nat) : p ≠ 0 → k.prog p = true → Means k (BeforeProgramByID p) (.before (fun e => e.prog == p))
  | afterProgramByID (p : Nat) : p ≠ 0 → k.prog p = true → Means k (AfterProgramByID p) (.after (fun e => e.prog == p))
  | beforeLink (fd p lk : Nat) : 0 < fd → fd < 2 ^ 31 → k.linkFd fd = some (p, lk) → Means k (BeforeLink fd) (.before (fun e => e.link == some lk))
  | afterLink (fd p lk : Nat) : 0 < fd → fd < 2 ^ 31 → k.linkFd fd = some (p, lk) → Means k (AfterLink fd) (.after (fun e => e.link == some lk))
  | beforeLinkByID (p lk : Nat) : k.link lk = some p → Means k (BeforeLinkByID lk) (.before (fun e => e.link == some lk))
  | afterLinkByID (p lk : Nat) : k.link lk = some p → Means k (AfterLinkByID lk) (.after (fun e => e.link == some lk))

theorem u32_nat (fd : Nat) (h : fd < 2 ^ 31) : u32 (fd : Int) = fd := by
  unfold u32; omega

theorem anchor_prog (fd p : Nat) (h : fd < 2 ^ 31) : anchor (.at_ (.prog fd) p) = .ok (fd, p) := by
  simp only [anchor]
  rw [if_neg (by omega), u32_nat fd h, Nat.or_zero]

theorem anchor_link (fd p : Nat) (h : fd < 2 ^ 31) : anchor (.at_ (.link fd) p) = .ok (fd, p ||| 8192) := by
  simp only [anchor]
  rw [if_neg (by omega), u32_nat fd h]

theorem nodup_inj {l : List Ent} (hd : (l.map Ent.prog).Nodup) {i j : Nat} (hi : i < l.length) (hj : j < l.length) (h : l[i].prog = l[j].prog) : i = j := by
  rw [List.Nodup, List.pairwise_iff_getElem] at hd
  rcases Nat.lt_trichotomy i j with hx | hx | hx
  · exact absurd (by rw [List.getElem_map, List.getElem_map]; exact h) (hd i j (by simpa using hi) (by simpa using hj) hx)
  · exact hx
  · exact absurd (by rw [List.getElem_map, List.getElem_map]; exact h.symm) (hd j i (by simpa using hj) (by simpa using hi) hx)

theorem linkFd_link {k : Kern} {fd p lk : Nat} (h : k.linkFd fd = some (p, lk)) : k.link lk = some p := by
  unfold Kern.linkFd at h
  split at h
  · rename_i l _
    cases hl : k.link l with
    | none => rw [hl] at h; cases h
    | some q => rw [hl] at h; cases h; exact hl
  · cases h

theorem match_prog (p : Nat) : matches_ (p, none) = fun e => e.prog == p := by
  funext e
  exact Bool.eq_iff_iff.mpr (by simp only [matches_, Option.isNone_none, Bool.true_or, Bool.and_true, beq_iff_eq]; exact eq_comm)

theorem match_link {k : Kern} {l : List Ent} (hc : Consistent k l) {p lk : Nat} (h : k.link lk = some p) : ∀ e ∈ l, matches_ (p, some lk) e = (e.link == some lk) := by
  intro e he
  unfold matches_
  by_cases hx : e.link = some lk
  · have := hc.links e he lk hx
    rw [h] at this
    cases this
    simp [hx]
  · have h1 : (e.link == some lk) = false := by simpa using hx
    have h2 : (some lk == e.link) = false := by simpa using fun h => hx h.symm
    simp only [h1, h2]
    simp

theorem before_congr {p q : Ent → Bool} {n : Ent} {l : List Ent} (h : ∀ e ∈ l, p e = q e) : before p n l = before q n l := by
  rw [before_eq, before_eq, findIdx_congr p q l h]

theorem after_congr {p q : Ent → Bool} {n : Ent} {l : List Ent} (h : ∀ e ∈ l, p e = q e) : after p n l = after q n l := by
  rw [after_eq, after_eq, findIdx_congr p q l h]

/-- Inserting, given what the anchor refers to. -/
theorem attach_at (k : Kern) (l : List Ent) (rev new : Nat) (link old : Option Nat) (x flags revision : Nat) (hr : revision = 0 ∨ revision = rev)
    (hn : ∀ e ∈ l, e.prog ≠ new) (hl : l.length < 64) (h2 : flags.testBit 2 = false) (r : Option (Nat × Option Nat)) (hrel : relative k x (flags &&& (2 ^ 32 - 1 - 4)) = some r) :
    mprogAttach k l rev new link old flags x revision =
      (position l r flags none).bind fun (i, flags) => if i ≥ 64 then none else some (ins l ⟨new, link⟩ i (flags.testBit 3)) := by
  unfold mprogAttach
  rw [if_neg (by rintro ⟨a, b⟩; exact hr.elim a b), if_neg (by simpa using hn), hrel]
  simp only [Option.bind_some, h2, Bool.false_eq_true, if_false]
  rw [if_neg (by omega)]

theorem position_before (l : List Ent) (r : Option (Nat × Option Nat)) (flags : Nat) (h3 : flags.testBit 3 = true) (h4 : flags.testBit 4 = false) :
    position l r flags none = (posBefore l r).map (fun i => (i, flags)) := by
  unfold position constrain
  rw [h3, h4]
  cases posBefore l r <;> rfl

theorem position_after (l : List Ent) (r : Option (Nat × Option Nat)) (flags : Nat) (h3 : flags.testBit 3 = false) (h4 : flags.testBit 4 = true) :
    position l r flags none = (posAfter l r).map (fun i => (i, flags)) := by
  unfold position constrain
  rw [h3, h4]
  cases posAfter l r <;> rfl

/-- The flags and the reference of an anchor lead to the right place. -/
theorem anchor_places (k : Kern) (l : List Ent) (hc : Consistent k l) (a : Anchor) (w : Where) (hm : Means k a w) (rev new : Nat) (link : Option Nat) (revision : Nat)
    (hr : revision = 0 ∨ revision = rev) (hn : ∀ e ∈ l, e.prog ≠ new) (hl : l.length < 64) :
    ∃ x flags, anchor a = .ok (x, flags) ∧ flags &&& 4 = 0 ∧ flags.testBit 2 = false ∧ flags &&& (2 ^ 32 - 1 - (4 + 8 + 16 + 32 + 8192)) = 0 ∧
      mprogAttach k l rev new link none flags x revision = place w ⟨new, link⟩ l := by
  have bef : ∀ (x flags : Nat) (r : Nat × Option Nat) (q : Ent → Bool), flags.testBit 2 = false → flags.testBit 3 = true → flags.testBit 4 = false →
      relative k x (flags &&& (2 ^ 32 - 1 - 4)) = some (some r) → (∀ e ∈ l, matches_ r e = q e) → mprogAttach k l rev new link none flags x revision = before q ⟨new, link⟩ l := by
    intro x flags r q h2 h3 h4 hrel hq
    rw [attach_at k l rev new link none x flags revision hr hn hl h2 _ hrel, position_before l _ flags h3 h4]
    have := insert_before l ⟨new, link⟩ r hl
    rw [before_congr hq] at this
    rw [← this]
    cases posBefore l (some r) with
    | none => rfl
    | some i => simp only [Option.map_some, Option.bind_some, h3]
  have aft : ∀ (x flags : Nat) (r : Nat × Option Nat) (q : Ent → Bool), flags.testBit 2 = false → flags.testBit 3 = false → flags.testBit 4 = true →
      relative k x (flags &&& (2 ^ 32 - 1 - 4)) = some (some r) → (∀ e ∈ l, matches_ r e = q e) → mprogAttach k l rev new link none flags x revision = after q ⟨new, link⟩ l := by
    intro x flags r q h2 h3 h4 hrel hq
    rw [attach_at k l rev new link none x flags revision hr hn hl h2 _ hrel, position_after l _ flags h3 h4]
    have := insert_after l ⟨new, link⟩ r hl
    rw [after_congr hq] at this
    rw [← this]
    cases posAfter l (some r) with
    | none => rfl
    | some i => simp only [Option.map_some, Option.bind_some, h3]
  cases hm with
  | head =>
    refine ⟨0, 8, rfl, rfl, rfl, rfl, ?_⟩
    rw [attach_at k l rev new link none 0 8 revision hr hn hl rfl none rfl, position_before l none 8 rfl rfl]
    show (if (-1 : Int) ≥ 64 then none else some (ins l ⟨new, link⟩ (-1) true)) = some (⟨new, link⟩ :: l)
    rw [if_neg (by omega)]
    unfold ins
    rw [if_neg (by omega)]
    rfl
  | tail =>
    refine ⟨0, 16, rfl, rfl, rfl, rfl, ?_⟩
    rw [attach_at k l rev new link none 0 16 revision hr hn hl rfl none rfl, position_after l none 16 rfl rfl]
    show (if (l.length : Int) ≥ 64 then none else some (ins l ⟨new, link⟩ l.length false)) = some (l ++ [⟨new, link⟩])
    rw [if_neg (by omega)]
    unfold ins
    simp
  | beforeProgram fd p h0 h1 hp =>
    refine ⟨fd, 8, ?_, rfl, rfl, rfl, bef fd 8 (p, none) _ rfl rfl rfl ?_ (fun e _ => congrFun (match_prog p) e)⟩
    · first | exact anchor_prog fd _ h1 | exact anchor_link fd _ h1
    · show (if _ then _ else _) = _
      rw [if_neg (by decide), if_neg (by rintro ⟨_, h⟩; omega), if_neg (by decide), hp]; rfl
  | afterProgram fd p h0 h1 hp =>
    refine ⟨fd, 16, ?_, rfl, rfl, rfl, aft fd 16 (p, none) _ rfl rfl rfl ?_ (fun e _ => congrFun (match_prog p) e)⟩
    · first | exact anchor_prog fd _ h1 | exact anchor_link fd _ h1
    · show (if _ then _ else _) = _
      rw [if_neg (by decide), if_neg (by rintro ⟨_, h⟩; omega), if_neg (by decide), hp]; rfl
  | beforeProgramByID p h0 hp =>
    refine ⟨p, 8 ||| 32, rfl, rfl, rfl, rfl, bef p (8 ||| 32) (p, none) _ rfl rfl rfl ?_ (fun e _ => congrFun (match_prog p) e)⟩
    show (if _ then _ else _) = _
    rw [if_neg (by decide), if_neg (by rintro ⟨h, _⟩; revert h; decide), if_pos (by decide), if_pos ⟨h0, hp⟩]
  | afterProgramByID p h0 hp =>
    refine ⟨p, 16 ||| 32, rfl, rfl, rfl, rfl, aft p (16 ||| 32) (p, none) _ rfl rfl rfl ?_ (fun e _ => congrFun (match_prog p) e)⟩
    show (if _ then _ else _) = _
    rw [if_neg (by decide), if_neg (by rintro ⟨h, _⟩; revert h; decide), if_pos (by decide), if_pos ⟨h0, hp⟩]
  | beforeLink fd p lk h0 h1 hp =>
    refine ⟨fd, 8 ||| 8192, ?_, rfl, rfl, rfl, bef fd (8 ||| 8192) (p, some lk) _ rfl rfl rfl ?_ (match_link hc (linkFd_link hp))⟩
    · first | exact anchor_prog fd _ h1 | exact anchor_link fd _ h1
    · show (if _ then _ else _) = _
      rw [if_pos (by decide), if_neg (by decide), hp]; rfl
  | afterLink fd p lk h0 h1 hp =>
    refine ⟨fd, 16 ||| 8192, ?_, rfl, rfl, rfl, aft fd (16 ||| 8192) (p, some lk) _ rfl rfl rfl ?_ (match_link hc (linkFd_link hp))⟩
    · first | exact anchor_prog fd _ h1 | exact anchor_link fd _ h1
    · show (if _ then _ else _) = _
      rw [if_pos (by decide), if_neg (by decide), hp]; rfl
  | beforeLinkByID p lk hp =>
    refine ⟨lk, 8 ||| (8192 ||| 32), rfl, rfl, rfl, rfl, bef lk (8 ||| (8192 ||| 32)) (p, some lk) _ rfl rfl rfl ?_ (match_link hc hp)⟩
    show (if _ then _ else _) = _
    rw [if_pos (by decide), if_pos (by decide), hp]; rfl
  | afterLinkByID p lk hp =>
    refine ⟨lk, 16 ||| (8192 ||| 32), rfl, rfl, rfl, rfl, aft lk (16 ||| (8192 ||| 32)) (p, some lk) _ rfl rfl rfl ?_ (match_link hc hp)⟩
    show (if _ then _ else _) = _
    rw [if_pos (by decide), if_pos (by decide), hp]; rfl

/-- **C85**: RawAttachProgram with an anchor puts the program exactly there, or fails and changes nothing if there is no such place. -/
theorem attach_exact_partial (k : Kern) (l : List Ent) (hc : Consistent k l) (rev : Nat) (o : Opts) (fd new : Nat) (hfd : o.prog = fd) (hlt : fd < 2 ^ 31) (hp : k.progFd fd = some new)
    (hf : o.flags = 0) (hr : o.revision = 0 ∨ o.revision = rev) (hn : ∀ e ∈ l, e.prog ≠ new) (hl : l.length < 64) :
    (∀ a w, o.anchor = some a → Means k a w → ∃ attr, rawAttach o = .ok attr ∧ progAttach k l rev attr = place w ⟨new, none⟩ l) ∧
    (o.anchor = none → ∃ attr, rawAttach o = .ok attr ∧ progAttach k l rev attr = place .tail ⟨new, none⟩ l) ∧
    (∀ tfd old : Nat, 0 < tfd → tfd < 2 ^ 31 → k.progFd tfd = some old → o.anchor = some (ReplaceProgram tfd) →
      ∃ attr, rawAttach o = .ok attr ∧ progAttach k l rev attr = place (.replace (fun e => e.prog == old && e.link.isNone)) ⟨new, none⟩ l) := by
  have hu : u32 o.prog = fd := by rw [hfd, u32_nat fd hlt]
  refine ⟨?_, ?_, ?_⟩
  · intro a w ha hm
    obtain ⟨x, flags, h1, h2, h3, h4, h5⟩ := anchor_places k l hc a w hm rev new none o.revision hr hn hl
    unfold rawAttach
    rw [if_neg (by rw [hf]; simp), ha]
    simp only [h1]
    rw [if_neg (by rw [h2]; simp)]
    refine ⟨_, rfl, ?_⟩
    unfold progAttach
    simp only [hf, Nat.zero_or]
    rw [if_neg (by rw [h4]; simp), hu, hp]
    simp only [Option.bind_some]
    rw [if_neg (by rw [h3]; simp)]
    exact h5
  · intro ha
    unfold rawAttach
    rw [if_neg (by rw [hf]; simp), ha]
    refine ⟨_, rfl, ?_⟩
    unfold progAttach
    simp only [hf]
    rw [if_neg (by simp), hu, hp]
    simp only [Option.bind_some]
    rw [if_neg (by simp), attach_at k l rev new none none 0 0 o.revision hr hn hl rfl none rfl]
    show (if (l.length : Int) ≥ 64 then none else some (ins l ⟨new, none⟩ l.length false)) = some (l ++ [⟨new, none⟩])
    rw [if_neg (by omega)]
    unfold ins
    simp
  · intro tfd old h0 h1 hold ha
    unfold rawAttach
    rw [if_neg (by rw [hf]; simp), ha]
    have han : anchor (ReplaceProgram tfd) = .ok (tfd, 4) := by
      exact anchor_prog tfd 4 h1
    simp only [han]
    rw [if_pos (by decide)]
    refine ⟨_, rfl, ?_⟩
    unfold progAttach
    simp only [hf, Nat.zero_or]
    rw [if_neg (by decide), hu, hp]
    simp only [Option.bind_some]
    rw [if_pos (by decide), hold]
    simp only [Option.bind_some]
    unfold mprogAttach
    rw [if_neg (by rintro ⟨a, b⟩; exact hr.elim a b), if_neg (by simpa using hn)]
    have hrel : relative k 0 (4 &&& (2 ^ 32 - 1 - 4)) = some none := rfl
    rw [hrel]
    simp only [Option.bind_some]
    rw [if_pos (by decide)]
    show _ = replace _ _ l
    rw [replace_eq]
    unfold posExact
    have hcg : l.findIdx? (fun e => some old == some e.prog) = l.findIdx? (fun e => e.prog == old) :=
      findIdx_congr _ _ _ (fun e _ => Bool.eq_iff_iff.mpr (by simp only [beq_iff_eq, Option.some.injEq]; exact eq_comm))
    rw [hcg]
    cases hi : l.findIdx? (fun e => e.prog == old) with
    | none =>
      have : l.findIdx? (fun e => e.prog == old && e.link.isNone) = none := by
        rw [List.findIdx?_eq_none_iff] at hi ⊢
        intro e he
        rw [hi e he]; rfl
      rw [this]; rfl
    | some i =>
      obtain ⟨hil, hie, hmin⟩ := List.findIdx?_eq_some_iff_getElem.mp hi
      simp only
      rw [List.getElem?_eq_getElem hil]
      simp only [Option.map_some]
      by_cases hlk : l[i].link = none
      · rw [if_pos (by rw [hlk])]
        have : l.findIdx? (fun e => e.prog == old && e.link.isNone) = some i := by
          rw [List.findIdx?_eq_some_iff_getElem]
          refine ⟨hil, by rw [hie, hlk]; rfl, fun j hj => ?_⟩
          have := hmin j hj
          simp only [Bool.not_eq_true] at this ⊢
          rw [this]; rfl
        rw [this]
        rfl
      · rw [if_neg (by simpa using hlk)]
        have : l.findIdx? (fun e => e.prog == old && e.link.isNone) = none := by
          rw [List.findIdx?_eq_none_iff]
          intro e he
          obtain ⟨j, hj, rfl⟩ := List.mem_iff_getElem.mp he
          by_cases hji : j = i
          · subst hji
            have : l[j].link.isNone = false := by
              cases h : l[j].link with
              | none => exact absurd h hlk
              | some _ => rfl
            rw [this]; simp
          · have : l[j].prog ≠ old := by
              intro hx
              apply hji
              have e1 : l[i].prog = old := by simpa using hie
              exact nodup_inj hc.nodup hj hil (by rw [hx, e1])
            simp [this]
        rw [this]; rfl

/-- **C85**: AttachTCX and AttachNetkit put the link exactly where the anchor says, at the end without one. -/
theorem attachLink_exact (k : Kern) (l : List Ent) (hc : Consistent k l) (rev : Nat) (o : Opts) (fd new lk : Nat) (hfd : o.prog = fd) (hlt : fd < 2 ^ 31) (hp : k.progFd fd = some new)
    (hi : 0 ≤ o.target) (hf : o.flags = 0) (hr : o.revision = 0 ∨ o.revision = rev) (hn : ∀ e ∈ l, e.prog ≠ new) (hl : l.length < 64) :
    (∀ a w, o.anchor = some a → Means k a w → ∃ attr, attachLink o = .ok attr ∧ linkAttach k l rev lk attr = place w ⟨new, some lk⟩ l) ∧
    (o.anchor = none → ∃ attr, attachLink o = .ok attr ∧ linkAttach k l rev lk attr = place .tail ⟨new, some lk⟩ l) := by
  have hu : u32 o.prog = fd := by rw [hfd, u32_nat fd hlt]
  refine ⟨?_, ?_⟩
  · intro a w ha hm
    obtain ⟨x, flags, h1, _, _, _, h5⟩ := anchor_places k l hc a w hm rev new (some lk) o.revision hr hn hl
    unfold attachLink
    rw [if_neg (by omega), if_neg (by rw [hf]; simp), ha]
    simp only [h1]
    refine ⟨_, rfl, ?_⟩
    unfold linkAttach
    simp only [hf, Nat.zero_or]
    rw [hu, hp]
    exact h5
  · intro ha
    unfold attachLink
    rw [if_neg (by omega), if_neg (by rw [hf]; simp), ha]
    refine ⟨_, rfl, ?_⟩
    unfold linkAttach
    simp only [hf]
    rw [hu, hp]
    simp only [Option.bind_some]
    rw [attach_at k l rev new (some lk) none 0 0 o.revision hr hn hl rfl none rfl]
    show (if (l.length : Int) ≥ 64 then none else some (ins l ⟨new, some lk⟩ l.length false)) = some (l ++ [⟨new, some lk⟩])
    rw [if_neg (by omega)]
    unfold ins
    simp

/-- **C85**: with a revision that is not the current one nothing is attached or detached; what is attached already isn't attached again. -/
theorem attach_refused (k : Kern) (l : List Ent) (rev : Nat) (o : Opts) (lk : Nat) :
    ((o.revision ≠ 0 ∧ o.revision ≠ rev) ∨ (∃ p, k.progFd (u32 o.prog) = some p ∧ ∃ e ∈ l, e.prog = p) →
      (∀ attr, rawAttach o = .ok attr → progAttach k l rev attr = none) ∧ (∀ attr, attachLink o = .ok attr → linkAttach k l rev lk attr = none)) ∧
    ((o.revision ≠ 0 ∧ o.revision ≠ rev) → ∀ attr, rawDetach o = .ok attr → progDetach k l rev attr = none) ∧
    (o.flags &&& (4 ||| 8 ||| 16 ||| 32 ||| 8192) ≠ 0 → rawAttach o = .error .flags ∧ rawDetach o = .error .flags ∧ (0 ≤ o.target → attachLink o = .error .flags)) := by
  have core : (o.revision ≠ 0 ∧ o.revision ≠ rev) ∨ (∃ p, k.progFd (u32 o.prog) = some p ∧ ∃ e ∈ l, e.prog = p) → ∀ new link old flags x, k.progFd (u32 o.prog) = some new →
      mprogAttach k l rev new link old flags x o.revision = none := by
    intro h new link old flags x hp
    unfold mprogAttach
    rcases h with h | ⟨p, h1, e, h2, h3⟩
    · rw [if_pos h]
    · rw [hp] at h1
      cases h1
      split
      · rfl
      · rw [if_pos (by simp only [List.any_eq_true]; exact ⟨e, h2, by simp [h3]⟩)]
  have fields : ∀ attr, rawAttach o = .ok attr → attr.prog = u32 o.prog ∧ attr.revision = o.revision := by
    intro attr h
    unfold rawAttach at h
    split at h
    · cases h
    · cases ha : o.anchor with
      | none => rw [ha] at h; cases h; exact ⟨rfl, rfl⟩
      | some a =>
        rw [ha] at h
        simp only at h
        split at h
        · cases h
        · split at h <;> (cases h; exact ⟨rfl, rfl⟩)
  have fieldsL : ∀ attr, attachLink o = .ok attr → attr.prog = u32 o.prog ∧ attr.revision = o.revision := by
    intro attr h
    unfold attachLink at h
    split at h
    · cases h
    · split at h
      · cases h
      · cases ha : o.anchor with
        | none => rw [ha] at h; cases h; exact ⟨rfl, rfl⟩
        | some a =>
          rw [ha] at h
          simp only at h
          split at h
          · cases h
          · cases h; exact ⟨rfl, rfl⟩
  have fieldsD : ∀ attr, rawDetach o = .ok attr → attr.revision = o.revision := by
    intro attr h
    unfold rawDetach at h
    split at h
    · cases h
    · cases ha : o.anchor with
      | none => rw [ha] at h; cases h; rfl
      | some a =>
        rw [ha] at h
        simp only at h
        split at h
        · cases h
        · cases h; rfl
  refine ⟨fun h => ⟨?_, ?_⟩, ?_, ?_⟩
  · intro attr ha
    obtain ⟨e1, e2⟩ := fields attr ha
    unfold progAttach
    split
    · rfl
    · rw [e1, e2]
      cases hp : k.progFd (u32 o.prog) with
      | none => rfl
      | some new =>
        simp only [Option.bind_some]
        split
        · cases k.progFd attr.replace with
          | none => rfl
          | some old => exact core h new _ _ _ _ hp
        · exact core h new _ _ _ _ hp
  · intro attr ha
    obtain ⟨e1, e2⟩ := fieldsL attr ha
    unfold linkAttach
    rw [e1, e2]
    cases hp : k.progFd (u32 o.prog) with
    | none => rfl
    | some new => exact core h new _ _ _ _ hp
  · intro h attr ha
    unfold progDetach
    rw [if_pos (.inr (.inr (by rw [fieldsD attr ha]; exact h)))]
  · intro h
    have h : o.flags &&& anchorFlags ≠ 0 := h
    refine ⟨?_, ?_, ?_⟩
    · unfold rawAttach; rw [if_pos h]
    · unfold rawDetach; rw [if_pos h]
    · intro ht; unfold attachLink; rw [if_neg (by omega), if_pos h]

/-- **C85**: a closed program or link, or something that isn't either, as an anchor is an error before anything is attached. -/
theorem anchor_closed (o : Opts) (a : Anchor) (ha : o.anchor = some a) (hf : o.flags = 0) (ht : 0 ≤ o.target) (p : Nat) (fd : Int) (hfd : fd < 0)
    (h : a = .at_ (.prog fd) p ∨ a = .at_ (.link fd) p ∨ a = .at_ .other p) :
    (∃ e, rawAttach o = .error e) ∧ (∃ e, rawDetach o = .error e) ∧ (∃ e, attachLink o = .error e) := by
  have : ∃ e, anchor a = .error e := by
    rcases h with rfl | rfl | rfl
    · exact ⟨.closedFd, if_pos hfd⟩
    · exact ⟨.closedFd, if_pos hfd⟩
    · exact ⟨.badTarget, rfl⟩
  obtain ⟨e, he⟩ := this
  have hfl : ¬ (o.flags &&& anchorFlags ≠ 0) := by rw [hf]; simp
  refine ⟨⟨e, ?_⟩, ⟨e, ?_⟩, ⟨e, ?_⟩⟩
  · unfold rawAttach; rw [if_neg hfl, ha]; simp only [he]
  · unfold rawDetach; rw [if_neg hfl, ha]; simp only [he]
  · unfold attachLink; rw [if_neg (by omega), if_neg hfl, ha]; simp only [he]

/-- **C85**: the system calls are for the hook and with the revision that were given; other flags are passed on when attaching. -/
theorem hook_exact (o : Opts) (t : Nat) (ht : o.target = t) (hlt : t < 2 ^ 31) (attr : Attr) :
    (rawAttach o = .ok attr ∨ attachLink o = .ok attr → attr.target = t ∧ attr.attach = o.attach ∧ attr.revision = o.revision ∧ (∀ i, i ≠ 2 ∧ i ≠ 3 ∧ i ≠ 4 ∧ i ≠ 5 ∧ i ≠ 13 → (o.anchor = none ∨ ∃ a w k, o.anchor = some a ∧ (Means k a w ∨ ∃ id, a = ReplaceProgramByID id ∨ a = ReplaceProgram id)) → attr.flags.testBit i = o.flags.testBit i)) ∧
    (rawDetach o = .ok attr → attr.target = t ∧ attr.attach = o.attach ∧ attr.revision = o.revision) := by
  have hu : u32 o.target = t := by rw [ht, u32_nat t hlt]
  have hb : ∀ a w k x flags, (Means k a w ∨ ∃ id, a = ReplaceProgramByID id ∨ a = ReplaceProgram id) → anchor a = .ok (x, flags) → ∀ i, i ≠ 2 ∧ i ≠ 3 ∧ i ≠ 4 ∧ i ≠ 5 ∧ i ≠ 13 → flags.testBit i = false := by
    intro a w k x flags hm he i hi
    have hmask : flags &&& (4 ||| 8 ||| 16 ||| 32 ||| 8192) = flags := by
      rcases hm with hm | ⟨id, rfl | rfl⟩
      · cases hm
        · cases he; rfl
        · cases he; rfl
        all_goals first
          | (simp only [BeforeProgram, AfterProgram, BeforeLink, AfterLink, anchor] at he; rw [if_neg (by omega)] at he; cases he; rfl)
          | (cases he; rfl)
      · cases he; rfl
      · simp only [ReplaceProgram, anchor] at he
        split at he
        · cases he
        · cases he; rfl
    rw [← hmask, Nat.testBit_and]
    have : (4 ||| 8 ||| 16 ||| 32 ||| 8192 : Nat).testBit i = false := by
      obtain ⟨h2, h3, h4, h5, h13⟩ := hi
      by_cases hlt : i < 14
      · have : ∀ i : Fin 14, i.val ≠ 2 → i.val ≠ 3 → i.val ≠ 4 → i.val ≠ 5 → i.val ≠ 13 → (4 ||| 8 ||| 16 ||| 32 ||| 8192 : Nat).testBit i.val = false := by decide
        exact this ⟨i, hlt⟩ h2 h3 h4 h5 h13
      · exact Nat.testBit_lt_two_pow (Nat.lt_of_lt_of_le (by decide : (4 ||| 8 ||| 16 ||| 32 ||| 8192 : Nat) < 2 ^ 14) (Nat.pow_le_pow_right (by decide) (by omega)))
    rw [this, Bool.and_false]
  refine ⟨?_, ?_⟩
  · rintro (h | h)
    · unfold rawAttach at h
      split at h
      · cases h
      · cases ha : o.anchor with
        | none => rw [ha] at h; cases h; exact ⟨hu, rfl, rfl, fun _ _ _ => rfl⟩
        | some a =>
          rw [ha] at h
          simp only at h
          split at h
          · cases h
          · rename_i x flags he
            split at h <;>
            · cases h
              refine ⟨hu, rfl, rfl, ?_⟩
              intro i hi hx
              rcases hx with hx | ⟨a', w, k, hx, hm⟩
              · cases hx
              · cases hx
                simp only [Nat.testBit_or, hb a w k x flags hm he i hi, Bool.or_false]
    · unfold attachLink at h
      split at h
      · cases h
      · split at h
        · cases h
        · cases ha : o.anchor with
          | none => rw [ha] at h; cases h; exact ⟨hu, rfl, rfl, fun _ _ _ => rfl⟩
          | some a =>
            rw [ha] at h
            simp only at h
            split at h
            · cases h
            · rename_i x flags he
              cases h
              refine ⟨hu, rfl, rfl, ?_⟩
              intro i hi hx
              rcases hx with hx | ⟨a', w, k, hx, hm⟩
              · cases hx
              · cases hx
                simp only [Nat.testBit_or, hb a w k x flags hm he i hi, Bool.or_false]
  · intro h
    unfold rawDetach at h
    split at h
    · cases h
    · cases ha : o.anchor with
      | none => rw [ha] at h; cases h; exact ⟨hu, rfl, rfl⟩
      | some a =>
        rw [ha] at h
        simp only at h
        split at h
        · cases h
        · cases h; exact ⟨hu, rfl, rfl⟩

/-! ## Detaching -/

theorem posExact_some {prog : Nat} {l : List Ent} {i : Int} (h : posExact (some prog) none l = some i) :
    ∃ j : Nat, i = j ∧ ∃ hj : j < l.length, l[j].prog = prog ∧ l[j].link = none := by
  unfold posExact at h
  cases hi : l.findIdx? (fun e => some prog == some e.prog) with
  | none => rw [hi] at h; cases h
  | some j =>
    rw [hi] at h
    simp only at h
    obtain ⟨hj, he, _⟩ := List.findIdx?_eq_some_iff_getElem.mp hi
    rw [List.getElem?_eq_getElem hj] at h
    simp only [Option.map_some, Option.some.injEq] at h
    split at h
    · rename_i hlk
      cases h
      exact ⟨j, rfl, hj, by simpa using (beq_iff_eq.mp he).symm, hlk⟩
    · cases h

theorem position_some {l : List Ent} {r : Option (Nat × Option Nat)} {flags : Nat} {i : Int} {x : Int × Nat} (h : position l r flags (some i) = some x) : x.1 = i := by
  unfold position constrain at h
  revert h
  cases flags.testBit 3 <;> cases flags.testBit 4 <;> simp only [Bool.false_eq_true, if_false, if_true]
  · intro h; cases h; rfl
  · cases posAfter l r with
    | none => intro h; cases h
    | some t =>
      simp only [Option.bind_some]
      by_cases ht : t = i
      · rw [if_pos ht]; intro h; cases h; exact ht
      · rw [if_neg ht]; intro h; cases h
  · cases posBefore l r with
    | none => intro h; cases h
    | some t =>
      simp only
      by_cases ht : t = i
      · rw [if_pos ht]; intro h; cases h; exact ht
      · rw [if_neg ht]; intro h; cases h
  · cases posBefore l r with
    | none => intro h; cases h
    | some t =>
      simp only
      by_cases ht : t = i
      · rw [if_pos ht]
        cases posAfter l r with
        | none => intro h; cases h
        | some t' =>
          simp only [Option.bind_some]
          by_cases ht' : t' = t
          · rw [if_pos ht']; intro h; cases h; rw [ht']; exact ht
          · rw [if_neg ht']; intro h; cases h
      · rw [if_neg ht]; intro h; cases h

theorem rawDetach_prog {o : Opts} {attr : Attr} (h : rawDetach o = .ok attr) : attr.prog = u32 o.prog := by
  unfold rawDetach at h
  split at h
  · cases h
  · cases ha : o.anchor with
    | none => rw [ha] at h; cases h; rfl
    | some a =>
      rw [ha] at h
      simp only at h
      split at h
      · cases h
      · cases h; rfl

/-- **C85**: RawDetachProgram removes the program it is given and nothing else, whatever the anchor; without anchor it succeeds exactly if the program is attached other than by a link. -/
theorem detach_exact (k : Kern) (l : List Ent) (hc : Consistent k l) (rev : Nat) (o : Opts) (fd p : Nat) (hfd : o.prog = fd) (hlt : fd < 2 ^ 31) (hp : k.progFd fd = some p) :
    (∀ attr l', rawDetach o = .ok attr → progDetach k l rev attr = some l' → ⟨p, none⟩ ∈ l ∧ l' = l.filter (fun e => e.prog != p)) ∧
    (o.anchor = none → o.flags = 0 → (o.revision = 0 ∨ o.revision = rev) → ⟨p, none⟩ ∈ l → ∃ attr, rawDetach o = .ok attr ∧ progDetach k l rev attr = some (l.filter (fun e => e.prog != p))) := by
  have hu : u32 o.prog = fd := by rw [hfd, u32_nat fd hlt]
  have hfil : ∀ j (hj : j < l.length), l[j].prog = p → l.eraseIdx j = l.filter (fun e => e.prog != p) := by
    have gen : ∀ (l : List Ent), (l.map Ent.prog).Nodup → ∀ j (hj : j < l.length), l[j].prog = p → l.eraseIdx j = l.filter (fun e => e.prog != p) := by
      intro l
      induction l with
      | nil => intro _ j hj; exact absurd hj (Nat.not_lt_zero _)
      | cons a r ih =>
        intro hnd j hj he
        rw [List.map_cons, List.nodup_cons] at hnd
        cases j with
        | zero =>
          have he : a.prog = p := he
          have : r.filter (fun e => e.prog != p) = r := by
            rw [List.filter_eq_self]
            intro e hm
            have : e.prog ≠ p := fun hx => hnd.1 (by rw [he, ← hx]; exact List.mem_map_of_mem hm)
            simpa using this
          simp [he, this]
        | succ j =>
          have hj' : j < r.length := by simpa using hj
          have he' : r[j].prog = p := he
          have hne : a.prog ≠ p := fun hx => hnd.1 (by rw [hx, ← he']; exact List.mem_map_of_mem (List.getElem_mem hj'))
          rw [List.eraseIdx_cons_succ, ih hnd.2 j hj' he']
          simp [hne]
    exact gen l hc.nodup
  refine ⟨?_, ?_⟩
  · intro attr l' h1 h2
    unfold progDetach at h2
    split at h2
    · cases h2
    · rw [rawDetach_prog h1, hu, hp] at h2
      simp only [Option.bind_some] at h2
      cases hr : relative k attr.relative attr.flags with
      | none => rw [hr] at h2; cases h2
      | some r =>
        rw [hr] at h2
        simp only [Option.bind_some] at h2
        cases hx : posExact (some p) none l with
        | none => rw [hx] at h2; cases h2
        | some i =>
          rw [hx] at h2
          simp only [Option.bind_some] at h2
          obtain ⟨j, rfl, hj, h3, h4⟩ := posExact_some hx
          cases hpos : position l r attr.flags (some (j : Int)) with
          | none => rw [hpos] at h2; cases h2
          | some y =>
            rw [hpos] at h2
            obtain ⟨y1, y2⟩ := y
            have := position_some hpos
            simp only at this
            subst this
            simp only [Option.map_some, Option.some.injEq, Int.toNat_natCast] at h2
            refine ⟨?_, ?_⟩
            · have : (⟨p, none⟩ : Ent) = l[j] := by
                cases hlj : l[j] with
                | mk a b => rw [hlj] at h3 h4; simp only at h3 h4; rw [h3, h4]
              rw [this]; exact List.getElem_mem hj
            · rw [← h2]; exact hfil j hj h3
  · intro ha hf hr hm
    obtain ⟨j, hj, hje⟩ := List.mem_iff_getElem.mp hm
    unfold rawDetach
    rw [if_neg (by rw [hf]; simp), ha]
    refine ⟨_, rfl, ?_⟩
    unfold progDetach
    simp only
    rw [if_neg (by
      rintro (h | h | ⟨h, h'⟩)
      · revert h; decide
      · revert h; decide
      · exact hr.elim h h'), hu, hp]
    simp only [Option.bind_some]
    have hrel : relative k 0 0 = some none := rfl
    rw [hrel]
    simp only [Option.bind_some]
    have hpe : posExact (some p) none l = some (j : Int) := by
      unfold posExact
      have : l.findIdx? (fun e => some p == some e.prog) = some j := by
        rw [List.findIdx?_eq_some_iff_getElem]
        refine ⟨hj, by rw [hje]; simp, fun i hi => ?_⟩
        have hne : l[i].prog ≠ p := by
          intro hx
          have : i = j := nodup_inj hc.nodup (by omega) hj (by rw [hx, hje])
          omega
        simpa using fun hx : p = l[i].prog => hne hx.symm
      rw [this]
      simp only
      rw [List.getElem?_eq_getElem hj, hje]
      rfl
    rw [hpe]
    simp only [Option.bind_some]
    have : position l none 0 (some (j : Int)) = some ((j : Int), 0) := rfl
    rw [this]
    simp only [Option.map_some, Int.toNat_natCast]
    rw [hfil j hj (by rw [hje])]

/-! ## Queries -/

/-- **C85**: QueryPrograms returns what is attached, in order and with the links, as of one moment: that of the second system call, or of the first if nothing was attached.
It fails if programs have been added in between, and never panics. -/
theorem query_exact (l1 l2 : List Ent) (r1 r2 : Nat) (hr : r1 = 0 → ∀ e ∈ l2, e.link = none) :
    (l1 = [] → queryPrograms (fun i => query (if i = 0 then l1 else l2) (if i = 0 then r1 else r2)) = some (.ok ([], r1))) ∧
    (l1 ≠ [] → l1.length < l2.length → queryPrograms (fun i => query (if i = 0 then l1 else l2) (if i = 0 then r1 else r2)) = some (.error ())) ∧
    (l1 ≠ [] → l2.length ≤ l1.length → queryPrograms (fun i => query (if i = 0 then l1 else l2) (if i = 0 then r1 else r2)) =
      some (.ok (l2.map (fun e => ⟨e.prog, e.link.getD 0⟩), r2))) := by
  have hq : query l1 r1 ⟨0, 0, [], none⟩ = .ok ⟨l1.length, r1, [], none⟩ := by unfold query; rw [if_pos (.inl rfl)]
  unfold queryPrograms
  simp only [if_true, hq]
  refine ⟨fun h => ?_, fun h1 h2 => ?_, fun h1 h2 => ?_⟩
  · subst h; rfl
  · have hpos := List.length_pos_iff.mpr h1
    rw [if_neg (by omega)]
    simp only [show ¬ (1 = 0) by decide, if_false]
    unfold query
    rw [if_neg (by simp; omega), if_pos (by simpa using h2)]
  · have hpos := List.length_pos_iff.mpr h1
    rw [if_neg (by omega)]
    simp only [show ¬ (1 = 0) by decide, if_false]
    unfold query
    rw [if_neg (by simp; omega), if_neg (by simpa using h2)]
    simp only [List.length_append, List.length_map, List.length_drop, List.length_replicate]
    rw [if_neg (by omega)]
    congr 3
    rw [List.take_append_of_le_length (by simp)]
    rw [show l2.length = (l2.map Ent.prog).length by simp, List.take_length]
    by_cases h0 : r1 = 0
    · have : ¬ (r1 ≠ 0) := fun h => h h0
      rw [if_neg this]
      apply List.ext_getElem
      · simp
      · intro n h3 h4
        have hn : n < l2.length := by simpa using h4
        simp only [List.getElem_map, List.getElem_zipIdx, Nat.zero_add, Option.map_none]
        rw [hr h0 _ (List.getElem_mem hn)]
        rfl
    · rw [if_pos h0]
      apply List.ext_getElem
      · simp
      · intro n h3 h4
        have hn : n < l2.length := by simpa using h4
        simp only [List.getElem_map, List.getElem_zipIdx, Nat.zero_add, Option.map_some]
        rw [List.getElem?_append_left (by simpa using hn), List.getElem?_map, List.getElem?_eq_getElem hn]
        rfl

/-! ## What is false -/

/-- **C85, a bug**: ReplaceProgramByID never works, whatever is attached. -/
theorem replaceByID_fails (k : Kern) (l : List Ent) (rev : Nat) (o : Opts) (id : Nat) (ha : o.anchor = some (ReplaceProgramByID id)) (attr : Attr) (h : rawAttach o = .ok attr) (hf : o.flags = 0) :
    progAttach k l rev attr = none := by
  unfold rawAttach at h
  rw [if_neg (by rw [hf]; simp), ha] at h
  simp only [ReplaceProgramByID, anchor] at h
  rw [if_pos (by decide)] at h
  cases h
  unfold progAttach
  simp only [hf, Nat.zero_or]
  rw [if_neg (by decide)]
  cases k.progFd (u32 o.prog) with
  | none => rfl
  | some new =>
    simp only [Option.bind_some]
    rw [if_pos (by decide)]
    cases k.progFd id with
    | none => rfl
    | some old =>
      simp only [Option.bind_some]
      unfold mprogAttach
      split
      · rfl
      · split
        · rfl
        · have : relative k 0 ((4 ||| 32) &&& (2 ^ 32 - 1 - 4)) = none := rfl
          rw [this]; rfl

/-- **C85**: a program can't be detached as the first or last one. -/
theorem detach_ends_fail (k : Kern) (l : List Ent) (rev : Nat) (o : Opts) (ha : o.anchor = some Head ∨ o.anchor = some Tail) (attr : Attr) (h : rawDetach o = .ok attr) (hf : o.flags = 0) :
    progDetach k l rev attr = none := by
  have key : attr.relative = 0 ∧ (attr.flags = 8 ∨ attr.flags = 16) := by
    unfold rawDetach at h
    rw [if_neg (by rw [hf]; simp)] at h
    rcases ha with ha | ha <;> (rw [ha] at h; simp only [Head, Tail, anchor] at h; cases h; simp)
  unfold progDetach
  split
  · rfl
  · cases k.progFd attr.prog with
    | none => rfl
    | some p =>
      simp only [Option.bind_some]
      have hrel : relative k attr.relative attr.flags = some none := by
        rw [key.1]
        rcases key.2 with h | h <;> (rw [h]; rfl)
      rw [hrel]
      simp only [Option.bind_some]
      cases hx : posExact (some p) none l with
      | none => rfl
      | some i =>
        obtain ⟨j, rfl, hj, _, _⟩ := posExact_some hx
        simp only [Option.bind_some]
        have : position l none attr.flags (some (j : Int)) = none := by
          rcases key.2 with h | h
          · rw [h]
            show (if (-1 : Int) = (j : Int) then some (some (-1)) else none : Option (Option Int)).bind _ = none
            rw [if_neg (by omega)]; rfl
          · rw [h]
            show (if ((l.length : Nat) : Int) = (j : Int) then some (some (l.length : Int)) else none : Option (Option Int)).bind _ = none
            rw [if_neg (by omega)]; rfl
        rw [this]; rfl

/-! ## Not vacuous -/

/-- Programs 10, 11, 12 behind descriptors 3, 4, 5; program 11 held by link 7 behind descriptor 6. -/
def kern : Kern := ⟨fun fd => if fd = 3 then some (.prog 10) else if fd = 4 then some (.prog 11) else if fd = 5 then some (.prog 12) else if fd = 6 then some (.link 7) else none,
  fun p => p == 10 || p == 11 || p == 12, fun l => if l = 7 then some 11 else none⟩

theorem kern_consistent : Consistent kern [⟨10, none⟩, ⟨11, some 7⟩] := by
  refine ⟨?_, by decide⟩
  intro e he lk h
  simp only [List.mem_cons, List.mem_nil_iff, or_false] at he
  rcases he with rfl | rfl
  · cases h
  · cases h; rfl

example : ∃ attr, rawAttach ⟨2, 5, 46, some (BeforeLink 6), 0, 0⟩ = .ok attr ∧ progAttach kern [⟨10, none⟩, ⟨11, some 7⟩] 9 attr = some [⟨10, none⟩, ⟨12, none⟩, ⟨11, some 7⟩] :=
  ⟨_, rfl, rfl⟩

example : ∃ attr, rawAttach ⟨2, 5, 46, some (ReplaceProgram 3), 0, 9⟩ = .ok attr ∧ progAttach kern [⟨10, none⟩, ⟨11, some 7⟩] 9 attr = some [⟨12, none⟩, ⟨11, some 7⟩] :=
  ⟨_, rfl, rfl⟩

example : Means kern (BeforeLink 6) (.before (fun e => e.link == some 7)) := .beforeLink 6 11 7 (by decide) (by decide) rfl

end Ebpf.Anchor
