import Verif.Props.ElfData
import Verif.Props.Linker
import Verif.Props.References
/-!
# C67: from the object to the linked program
-/
namespace Ebpf.Elf
open Ebpf.Asm Ebpf.LinkerFix Ebpf.Elf.Spec Ebpf.Linker.Spec

/-- The functions as the linker (linker.go:148-227) sees them. -/
def linkable (progs : List (String × Bool × List LIns)) : Linker.Progs := progs.map fun e => (e.1, e.2.2.map (·.p))

theorem linkable_lookup (t : String) : ∀ (progs : List (String × Bool × List LIns)),
    (linkable progs).lookup t = (progs.lookup t).map fun e => e.2.map (·.p)
  | [] => rfl
  | (n, x, f) :: r => by
    have ih := linkable_lookup t r
    unfold linkable at ih ⊢
    simp only [List.map_cons, List.lookup_cons]
    cases hc : (t == n) with
    | true => rfl
    | false => exact ih

/-- Specification: at position `idx` of the program `q`, instruction `j` (a call or a function pointer) leads to a copy in `q` of the function that is
at place `p` of the object: the processor continues at raw offset "own offset + 1 + constant". -/
def Lands (o : Object) (bo : ByteOrder) (q : List PIns) (idx : Nat) (j : PIns) (p : Place) : Prop :=
  ∃ m t raw ft, CodeAt o bo p t raw ∧ MadeOf t raw ft ∧ (q.drop m).take raw.length = ft.map (·.p) ∧
    (rawOffset q idx : Int) + 1 + j.ins.cons.toInt = rawOffset q m

theorem bodies_split (P : Linker.Progs) (t : String) (ft : List PIns) (ht : P.lookup t = some ft) : ∀ (l : List String), t ∈ l →
    ∃ pre post, bodies P l = pre ++ ft ++ post
  | a :: r, h => by
    have hb : bodies P (a :: r) = (P.lookup a).getD [] ++ bodies P r := rfl
    rw [hb]
    by_cases ha : t = a
    · subst ha
      rw [ht]
      exact ⟨[], bodies P r, by simp⟩
    · rcases List.mem_cons.1 h with h | h
      · exact absurd h ha
      · obtain ⟨pre, post, he⟩ := bodies_split P t ft ht r h
        exact ⟨(P.lookup a).getD [] ++ pre, post, by rw [he]; simp [List.append_assoc]⟩

/-- A resolved reference lands. -/
theorem lands_of {o : Object} {bo : ByteOrder} {progs : List (String × Bool × List LIns)} {name : String} {q q' : List PIns} {names : List String}
    (hq : q = bodies (linkable progs) (name :: names))
    (hnames : ∀ y, y ∈ names ↔ (Reach (linkable progs) name y ∧ ((linkable progs).lookup y).isSome))
    (he : encodeFunctionReferences q = .ok q') (hsz : size q < 2 ^ 62) {b : String} (hb : b ∈ name :: names) {fb : List PIns}
    (hfb : (linkable progs).lookup b = some fb) {n : Nat} {i : LIns} (hi : fb[n]? = some i.p) {pre post : List PIns} (hpp : q = pre ++ fb ++ post)
    {p : Place} (hr : Resolved o bo progs i p) :
    ∃ j : PIns, q'[pre.length + n]? = some j ∧ Lands o bo q (pre.length + n) j p := by
  obtain ⟨t, x, f, raw, href, hlk, hcode, hmade⟩ := hr
  have hn : n < fb.length := (List.getElem?_eq_some_iff.1 hi).1
  have hqi : q[pre.length + n]? = some i.p := by
    rw [hpp, List.append_assoc, List.getElem?_append_right (by omega), Nat.add_sub_cancel_left,
      List.getElem?_append_left hn, hi]
  obtain ⟨hlen, hall⟩ := references_land_partial q q' hsz he
  obtain ⟨j, hj, hw, _, _⟩ := hall _ _ hqi
  have hwants : i.p.ref ≠ "" ∧ WantsImm i.p.ins := by
    obtain ⟨h1, h2, h3, h4⟩ := href
    refine ⟨by rw [h1]; exact h2, h3, ?_⟩
    rcases h4 with h4 | h4
    · exact Or.inl h4
    · exact Or.inr (Or.inl h4)
  obtain ⟨m, ⟨_, huniq⟩, hdist, _⟩ := hw hwants
  have hlt : (linkable progs).lookup t = some (f.map (·.p)) := by rw [linkable_lookup, hlk]; rfl
  have hcalls : Calls (linkable progs) b t := ⟨fb, hfb, i.p, List.mem_of_getElem? hi, href⟩
  have htm : t ∈ name :: names := by
    apply List.mem_cons_of_mem
    rw [hnames]
    refine ⟨?_, by rw [hlt]; rfl⟩
    rcases List.mem_cons.1 hb with hb | hb
    · subst hb; exact Reach.one hcalls
    · exact Reach.more ((hnames b).1 hb).1 hcalls
  obtain ⟨pre', post', hs⟩ := bodies_split _ t _ hlt _ htm
  rw [← hq] at hs
  have hne : raw ≠ [] := by
    obtain ⟨_, _, h⟩ := hcode
    exact h.2.2.2.2.2.2.2.2.2
  have hm : m = pre'.length := by
    cases raw with
    | nil => exact absurd rfl hne
    | cons r0 rr =>
      obtain ⟨j0, hj0, _, _, _, hsym⟩ := hmade.2 0 r0 rfl
      have h0 : q[pre'.length]? = some j0.p := by
        have hl0 : 0 < (f.map (·.p)).length := by
          rw [List.length_map, hmade.1]; simp
        rw [hs, List.append_assoc, List.getElem?_append_right (by omega), Nat.sub_self,
          List.getElem?_append_left hl0, List.getElem?_map, hj0]
        rfl
      have := huniq _ _ h0 (by rw [hsym, href.1]; rfl)
      exact this.symm
  refine ⟨j, hj, m, t, raw, f, hcode, hmade, ?_, ?_⟩
  · rw [hm, hs, List.append_assoc, List.drop_left, ← hmade.1]
    have : f.length = (f.map (·.p)).length := by rw [List.length_map]
    rw [this, List.take_left]
  · rw [hdist]
    unfold distance
    omega

/-- C67 (partial): a program of an object, linked, is the code of the program and of every function it reaches through references; and after the final
encoding each bpf-to-bpf call and function pointer in it leads to a copy of the function that the relocation (or relative offset) in the object
says. Missing: the same cases as in `calls_resolve_partial`. -/
theorem linked_calls_land_partial (o : Object) (bo : ByteOrder) (progs : List (String × Bool × List LIns)) (h : loadObject o bo = .ok progs)
    (wf : WellFormed o) (na : NoAliases o) (name : String) (x : Bool) (f : List LIns) (hl : progs.lookup name = some (x, f)) :
    ∃ (q : List PIns) (names : List String), Linker.flattenInstructions (linkable progs) name = some q ∧ q = bodies (linkable progs) (name :: names) ∧
      names.Nodup ∧
      ∀ q', encodeFunctionReferences q = .ok q' → size q < 2 ^ 62 → ∀ b ∈ name :: names, ∃ (k off : Nat) (raw : List Ins) (fb : List LIns),
        CodeAt o bo ⟨k, off⟩ b raw ∧ MadeOf b raw fb ∧ (linkable progs).lookup b = some (fb.map (·.p)) ∧
        ∀ (pre post : List PIns), q = pre ++ fb.map (·.p) ++ post → ∀ (n : Nat) (i : Ins), raw[n]? = some i →
          ∃ j : PIns, q'[pre.length + n]? = some j ∧
            (∀ r, Relocation o k (off + offsetOf raw n) r → HasKind o r.sec .program → IsCall i → (r.typ = .sect ∨ i.cons.toInt = -1) →
              Lands o bo q (pre.length + n) j (callTarget r i)) ∧
            (∀ r, Relocation o k (off + offsetOf raw n) r → HasKind o r.sec .program → IsLoad i → r.typ = .sect → 0 ≤ i.cons.toInt →
              Lands o bo q (pre.length + n) j (loadTarget r i)) ∧
            (NoRelocation o k (off + offsetOf raw n) → IsCall i → i.cons.toInt ≠ -1 → 0 ≤ (relativeTarget k (off + offsetOf raw n) i).off →
              Lands o bo q (pre.length + n) j (relativeTarget k (off + offsetOf raw n) i)) := by
  have hlk : (linkable progs).lookup name = some (f.map (·.p)) := by rw [linkable_lookup, hl]; rfl
  obtain ⟨names, hq, hnd, hnames⟩ := Linker.flatten_exact (linkable progs) name _ hlk
  have hbod : f.map (·.p) ++ bodies (linkable progs) names = bodies (linkable progs) (name :: names) := by
    have : bodies (linkable progs) (name :: names) = ((linkable progs).lookup name).getD [] ++ bodies (linkable progs) names := rfl
    rw [this, hlk]; rfl
  refine ⟨_, names, hq, hbod, hnd, ?_⟩
  intro q' he hsz b hb
  have hbs : ∃ y fb, progs.lookup b = some (y, fb) := by
    rcases List.mem_cons.1 hb with hb | hb
    · subst hb; exact ⟨x, f, hl⟩
    · have := ((hnames b).1 hb).2
      rw [linkable_lookup] at this
      cases hh : progs.lookup b with
      | none => rw [hh] at this; cases this
      | some e => exact ⟨e.1, e.2, rfl⟩
  obtain ⟨y, fb, hfb⟩ := hbs
  obtain ⟨k, off, raw, hcode, hmade, hins⟩ := calls_resolve_partial o bo progs h wf na b y fb hfb
  have hfb' : (linkable progs).lookup b = some (fb.map (·.p)) := by rw [linkable_lookup, hfb]; rfl
  refine ⟨k, off, raw, fb, hcode, hmade, hfb', ?_⟩
  intro pre post hpp n i hi
  obtain ⟨j, hj, h1, h2, h3, _⟩ := hins n i hi
  have hjm : (fb.map (·.p))[n]? = some j.p := by rw [List.getElem?_map, hj]; rfl
  have hlands : ∀ p, Resolved o bo progs j p → ∃ j' : PIns, q'[pre.length + n]? = some j' ∧
      Lands o bo (f.map (·.p) ++ bodies (linkable progs) names) (pre.length + n) j' p :=
    fun p hp => lands_of hbod hnames he hsz hb hfb' hjm hpp hp
  have hlen : q'.length = (f.map (·.p) ++ bodies (linkable progs) names).length := (references_land_partial _ _ hsz he).1
  have hn : n < (fb.map (·.p)).length := (List.getElem?_eq_some_iff.1 hjm).1
  have hex : ∃ j', q'[pre.length + n]? = some j' := by
    have : pre.length + n < q'.length := by
      rw [hlen, hpp]
      simp only [List.length_append]
      omega
    exact ⟨_, List.getElem?_eq_getElem this⟩
  obtain ⟨j', hj'⟩ := hex
  have hl' : ∀ p, Resolved o bo progs j p → Lands o bo (f.map (·.p) ++ bodies (linkable progs) names) (pre.length + n) j' p := by
    intro p hp
    obtain ⟨j2, hj2, hh⟩ := hlands p hp
    rw [hj'] at hj2
    injection hj2 with hj2
    subst hj2
    exact hh
  exact ⟨j', hj', fun r a b c d => hl' _ (h1 r a b c d), fun r a b c d e => hl' _ (h2 r a b c d e), fun a b c d => hl' _ (h3 a b c d)⟩

/-- The object of `ElfData`: `prog` calls `.text + 8`; the linked program is `prog` and `g`, and the call leads over the `exit` to `g`. -/
example : (match loadObject (exObject ⟨".text", .sect, .loc, 2, 0, 0⟩ 0) .little with
    | .ok progs => (Linker.flattenInstructions (linkable progs) "prog").bind fun q =>
        match encodeFunctionReferences q with
        | .ok q' => some (q'.map fun i => (i.sym, i.ins.op, i.ins.cons))
        | .error _ => none
    | .error _ => none) =
    some [("prog", 0x85#32, 1#64), ("", 0x95#32, 0#64), ("g", 0x95#32, 0#64)] := by decide +kernel

end Ebpf.Elf
