import Verif.Spec.MapHandles
import Verif.Props.ProgHandles
/-!
# C115: maps own their descriptors
-/
namespace Ebpf.MapHandles
open Ebpf.ProgHandles (K St FD openFd closeFd closeAll dup handleFromID Calls closeFd_perm openFd_nodup dup_spec split_at mem_lookup lookup_mem open_close keys above above_fresh)
open Spec

variable {kn : Kernel} {pick : List Nat → Nat}

theorem perCPU_iff (t : BitVec 32) : MapCreate.hasPerCPU t = true ↔ PerCPU t := by
  simp only [MapCreate.hasPerCPU, PerCPU, Bool.or_eq_true, beq_iff_eq, List.mem_cons, List.not_mem_nil, or_false]
  constructor
  · rintro ((((((h | h) | h) | h) | h) | h) | h) <;> simp [h]
  · rintro (h | h | h | h | h | h | h) <;> simp [h]

/-- Everything which has an owner. -/
def all (w : World) (base : List (Nat × K)) : List (Nat × K) :=
  w.maps.flatMap entries ++ (w.handles.flatMap handleEntries ++ (w.garbage ++ (w.raw ++ base)))

/-- A map is what the kernel says. -/
def Good (kn : Kernel) (mapped : List Mem) (m : Map) : Prop :=
  m.attr = kn.attr m.mid ∧ FullSize m.attr m.fullValueSize ∧ ∀ mm, m.memory = some mm → mm ∈ mapped ∧ m.attr.flags.getLsbD 10 = true

/-- The invariant, with descriptors `xs` which are being worked on. -/
structure Inv (kn : Kernel) (base : List (Nat × K)) (w : World) (xs : List (Nat × K)) : Prop where
  table : w.st.table.Perm (xs ++ all w base)
  nodup : (keys w.st.table).Nodup
  single : w.st.double = false
  good : ∀ m ∈ w.maps, Good kn w.mapped m
  btf : ∀ fd bid, some (fd, bid) ∈ w.handles → bid ≠ 0

theorem keys_entries (l : List Map) : keys (l.flatMap entries) = l.flatMap (fun m => m.fd.toList) := by
  induction l with
  | nil => rfl
  | cons m l ih =>
    rw [List.flatMap_cons, List.flatMap_cons, ← ih]
    cases h : m.fd <;> simp [keys, entries, h]

theorem keys_handles (l : List (Option (Nat × Nat))) : keys (l.flatMap handleEntries) = l.flatMap (fun h => (h.map (·.1)).toList) := by
  induction l with
  | nil => rfl
  | cons h l ih =>
    rw [List.flatMap_cons, List.flatMap_cons, ← ih]
    cases h <;> simp [keys, handleEntries]

theorem inv_owned {base : List (Nat × K)} {w : World} (h : Inv kn base w []) : Owned kn base w where
  distinct := h.nodup
  exact := by
    have := h.table.map (·.1)
    rw [List.nil_append, all] at this
    simp only [List.map_append] at this
    rw [show (w.maps.flatMap entries).map (·.1) = _ from keys_entries w.maps, show (w.handles.flatMap handleEntries).map (·.1) = _ from keys_handles w.handles] at this
    simpa [owners] using this
  foreign := fun x hx => h.table.mem_iff.mpr (by
    simp only [List.nil_append, all, List.mem_append] at hx ⊢
    exact .inr (.inr (.inr hx)))
  maps := fun m hm fd hfd => h.table.mem_iff.mpr (by
    simp only [List.nil_append, all, List.mem_append]
    exact .inl (List.mem_flatMap.mpr ⟨m, hm, by simp [entries, hfd]⟩))
  attrs := fun m hm => ⟨(h.good m hm).1, (h.good m hm).2.1⟩
  handles := fun fd bid hm => ⟨h.table.mem_iff.mpr (by
    simp only [List.nil_append, all, List.mem_append]
    exact .inr (.inl (List.mem_flatMap.mpr ⟨_, hm, by simp [handleEntries]⟩))), h.btf fd bid hm⟩
  memory := fun m hm => (h.good m hm).2.2
  single := h.single

theorem inv_open {base : List (Nat × K)} {w : World} {xs : List (Nat × K)} (hf : Fresh pick) (h : Inv kn base w xs) (k : K) :
    Inv kn base { w with st := (openFd pick k w.st).2 } (((openFd pick k w.st).1, k) :: xs) :=
  ⟨List.Perm.cons _ h.table, openFd_nodup hf h.nodup, h.single, h.good, h.btf⟩

theorem inv_close {base : List (Nat × K)} {w : World} {xs : List (Nat × K)} {fd : Nat} {k : K} (h : Inv kn base w ((fd, k) :: xs)) :
    Inv kn base { w with st := closeFd fd w.st } xs := by
  obtain ⟨h1, h2, h3, _⟩ := closeFd_perm (rest := xs ++ all w base) h.table h.nodup
  exact ⟨h1, h2, h3.trans h.single, h.good, h.btf⟩

/-- What a function which gives a map leaves behind. -/
def Gives' (kn : Kernel) (base : List (Nat × K)) (r : Option Map × World) : Prop :=
  match r.1 with
  | none => Inv kn base r.2 []
  | some m => Inv kn base r.2 (entries m) ∧ Good kn r.2.mapped m

theorem inv_keep {base : List (Nat × K)} {r : Option Map × World} (h : Gives' kn base r) : Inv kn base (keep r) [] := by
  obtain ⟨m, w⟩ := r
  cases m with
  | none => exact h
  | some m =>
    obtain ⟨h, hg⟩ := h
    refine ⟨?_, h.nodup, h.single, ?_, h.btf⟩
    · have ht := h.table
      rw [List.perm_iff_count] at ht ⊢
      intro x
      have := ht x
      simp only [keep, all, List.count_append, List.flatMap_append, List.flatMap_cons, List.flatMap_nil, List.count_nil] at this ⊢
      omega
    · intro q hq
      rcases List.mem_append.mp hq with hq | hq
      · exact h.good q hq
      · rw [List.mem_singleton] at hq; subst hq; exact hg

theorem parts_good {cpus : Option Nat} {fd mid : Nat} {m : Map} (h : newMapFromParts cpus fd mid (kn.attr mid) = some m) :
    m.attr = kn.attr mid ∧ m.mid = mid ∧ FullSize m.attr m.fullValueSize ∧ m.memory = none ∧ m.pinnedPath = [] ∧ m.fd = some fd := by
  unfold newMapFromParts at h
  by_cases hp : MapCreate.hasPerCPU (kn.attr mid).typ = false
  · rw [if_pos hp] at h
    cases h
    refine ⟨rfl, rfl, .inl ⟨fun hc => ?_, rfl⟩, rfl, rfl, rfl⟩
    rw [← perCPU_iff] at hc
    rw [hc] at hp; cases hp
  · rw [if_neg hp] at h
    cases cpus with
    | none => cases h
    | some n =>
      cases h
      refine ⟨rfl, rfl, .inr ⟨(perCPU_iff _).mp (by simpa using hp), n, rfl⟩, rfl, rfl, rfl⟩

theorem newMapFromFD_gives {base : List (Nat × K)} {w : World} {info : Bool} {cpus : Option Nat} {fd mid : Nat} (h : Inv kn base w [(fd, .map mid)]) :
    Gives' kn base (newMapFromFD kn info cpus fd mid w) := by
  unfold newMapFromFD
  cases info with
  | false => exact inv_close h
  | true =>
    rw [if_neg (by decide)]
    cases hp : newMapFromParts cpus fd mid (kn.attr mid) with
    | none =>
      refine ⟨?_, h.nodup, h.single, h.good, h.btf⟩
      have ht := h.table
      rw [List.perm_iff_count] at ht ⊢
      intro x
      have := ht x
      simp only [all, List.count_append, List.count_cons, List.count_nil] at this ⊢
      omega
    | some m =>
      obtain ⟨h1, h2, h3, h4, _, h6⟩ := parts_good hp
      refine ⟨?_, ?_, h3, ?_⟩
      · rw [show entries m = [(fd, .map mid)] by simp [entries, h6, h2]]; exact h
      · rw [h1, h2]
      · intro mm hm; rw [h4] at hm; cases hm

theorem adopt_gives {base : List (Nat × K)} {w : World} {info : Bool} {cpus : Option Nat} {fd : Nat} {k : K} (h : Inv kn base w [(fd, k)]) :
    Gives' kn base (adopt kn info cpus fd k w) := by
  cases k with
  | map mid => exact newMapFromFD_gives h
  | prog p => exact inv_close h
  | btf b => exact inv_close h

theorem fromRaw_gives {base : List (Nat × K)} {w : World} {ok info : Bool} {cpus : Option Nat} {fd : Nat} {k : K} (hf : Fresh pick) (h : Inv kn base w [(fd, k)]) :
    Gives' kn base (fromRaw kn pick ok info cpus fd k w) := by
  unfold fromRaw newFD
  by_cases h0 : fd ≠ 0
  · rw [if_pos h0]
    exact adopt_gives h
  · rw [if_neg h0]
    have h0 : fd = 0 := by omega
    subst h0
    have hm : (0, k) ∈ w.st.table := h.table.mem_iff.mpr (by simp)
    rcases dup_spec pick ok (some 0) w.st with e | ⟨n, k', _, hn, hk, e⟩
    · rw [e]; exact inv_close h
    · cases hn
      have hkk : k' = k := by
        have a := mem_lookup h.nodup hm
        rw [mem_lookup h.nodup hk] at a
        exact Option.some.inj a
      subst hkk
      rw [e]
      refine adopt_gives ?_
      have ho := inv_open hf h k'
      have ho' : Inv kn base { w with st := (openFd pick k' w.st).2 } ((0, k') :: [((openFd pick k' w.st).1, k')]) :=
        ⟨ho.table.trans (List.Perm.append_right _ (List.Perm.swap _ _ _)), ho.nodup, ho.single, ho.good, ho.btf⟩
      exact inv_close ho'

theorem fromID_gives {base : List (Nat × K)} {w : World} {byID info : Bool} {cpus : Option Nat} {mid : Nat} (hf : Fresh pick) (h : Inv kn base w []) :
    Gives' kn base (fromID kn pick byID info cpus mid w) := by
  unfold fromID
  cases byID with
  | false => exact h
  | true =>
    rw [if_pos rfl]
    exact newMapFromFD_gives (inv_open hf h _)

theorem loadPinned_gives {base : List (Nat × K)} {w : World} {path : Bytes} {target : Option K} {link info : Bool} {cpus : Option Nat} (hf : Fresh pick) (h : Inv kn base w []) :
    Gives' kn base (loadPinned kn pick path target link info cpus w) := by
  unfold loadPinned
  cases target with
  | none => exact h
  | some k =>
    have ho := inv_open hf h k
    dsimp only
    cases link with
    | false => exact inv_close ho
    | true =>
      rw [if_neg (by decide)]
      cases k with
      | prog p => exact inv_close ho
      | btf b => exact inv_close ho
      | map mid =>
        have hg := newMapFromFD_gives (info := info) (cpus := cpus) ho
        dsimp only
        generalize newMapFromFD kn info cpus (openFd pick (.map mid) w.st).1 mid { w with st := (openFd pick (.map mid) w.st).2 } = r at hg ⊢
        obtain ⟨m, w'⟩ := r
        cases m with
        | none => exact hg
        | some m => exact hg

theorem clone_gives {base : List (Nat × K)} {w : World} {m : Map} {ok : Bool} (hf : Fresh pick) (h : Inv kn base w []) (hm : m ∈ w.maps) :
    Gives' kn base ((m.clone pick ok w.st).1, { w with st := (m.clone pick ok w.st).2 }) := by
  unfold Map.clone
  rcases dup_spec pick ok m.fd w.st with e | ⟨n, k, _, hn, hk, e⟩
  · rw [e]; exact h
  · have hkk : k = .map m.mid := by
      have a := mem_lookup h.nodup ((inv_owned h).maps m hm n hn)
      rw [mem_lookup h.nodup hk] at a
      exact Option.some.inj a
    subst hkk
    rw [e]
    obtain ⟨g1, g2, _⟩ := h.good m hm
    exact ⟨inv_open hf h _, g1, g2, fun mm hmm => by cases hmm⟩

theorem memory_flag (f : BitVec 32) : f &&& 0x400 = 0 ↔ f.getLsbD 10 = false := by
  constructor
  · intro h
    have := congrArg (fun x : BitVec 32 => x.getLsbD 10) h
    simpa using this
  · intro h
    apply BitVec.eq_of_getLsbD_eq
    intro i hi
    rw [BitVec.getLsbD_and]
    by_cases h10 : i = 10
    · subst h10; rw [h]; rfl
    · have : (0x400#32).getLsbD i = false := by
        have : ∀ j : Fin 32, j.val ≠ 10 → (0x400#32).getLsbD j.val = false := by decide
        exact this ⟨i, hi⟩ h10
      simp [this]

theorem newMemory_addr {rw ro : Mmap} {fresh size : Nat} {mm : Mem} (h : newMemory rw ro fresh size = some mm) : mm.addr = fresh ∧ mm.size = size ∧ mm.heap = false := by
  cases rw <;> cases ro <;> cases h <;> exact ⟨rfl, rfl, rfl⟩

theorem mem_good {mapped : List Mem} {m : Map} (size : Option Nat) (rw ro : Mmap) (h : Good kn mapped m) :
    Good kn (m.mem size rw ro mapped).2.2 (m.mem size rw ro mapped).2.1 ∧ (m.mem size rw ro mapped).2.1.fd = m.fd ∧ (m.mem size rw ro mapped).2.1.mid = m.mid ∧
      ∃ l, (m.mem size rw ro mapped).2.2 = mapped ++ l := by
  unfold Map.mem
  cases hm : m.memory with
  | some mm => exact ⟨h, rfl, rfl, [], by simp⟩
  | none =>
    dsimp only
    by_cases hfl : m.attr.flags &&& 0x400 = 0
    · rw [if_pos hfl]; exact ⟨h, rfl, rfl, [], by simp⟩
    · rw [if_neg hfl]
      cases size with
      | none => exact ⟨h, rfl, rfl, [], by simp⟩
      | some n =>
        dsimp only
        cases newMemory (if m.fd = none then .other else rw) ro mapped.length n with
        | none => exact ⟨h, rfl, rfl, [], by simp⟩
        | some mm =>
          refine ⟨⟨h.1, h.2.1, ?_⟩, rfl, rfl, [mm], rfl⟩
          intro q hq
          cases hq
          refine ⟨by simp, ?_⟩
          cases hb : m.attr.flags.getLsbD 10 with
          | true => rfl
          | false => exact absurd ((memory_flag _).mpr hb) hfl

theorem erase_perm {α : Type} {l : List α} {i : Nat} {x : α} (h : l[i]? = some x) : (x :: l.eraseIdx i).Perm l := by
  induction l generalizing i with
  | nil => cases h
  | cons z l ih =>
    cases i with
    | zero => cases h; exact .refl _
    | succ i =>
      rw [List.eraseIdx_cons_succ]
      exact (List.Perm.swap _ _ _).trans (.cons _ (ih h))

theorem inv_gc : ∀ (g : List (Nat × K)) (base : List (Nat × K)) (w : World) (xs : List (Nat × K)), Inv kn base w (g ++ xs) →
    Inv kn base { w with st := closeAll (g.map (·.1)) w.st } xs
  | [], _, _, _, h => h
  | (fd, k) :: g, base, w, xs, h => by
    have := inv_gc g base { w with st := closeFd fd w.st } xs (inv_close (k := k) h)
    exact this

theorem inv_step (hf : Fresh pick) {base : List (Nat × K)} {w : World} (h : Inv kn base w []) (op : Op) : Inv kn base (step kn pick w op) [] := by
  cases op with
  | fromID mid byID info cpus => exact inv_keep (fromID_gives hf h)
  | fromPin path target link info cpus => exact inv_keep (loadPinned_gives hf h)
  | fromRaw i ok info cpus =>
    simp only [step]
    cases hx : w.raw[i]? with
    | none => exact h
    | some x =>
      refine inv_keep (fromRaw_gives (k := x.2) hf ?_)
      refine ⟨?_, h.nodup, h.single, h.good, h.btf⟩
      have ht := h.table
      rw [List.perm_iff_count] at ht ⊢
      intro y
      have := ht y
      obtain ⟨xf, xk⟩ := x
      have e : ((xf, xk) :: w.raw.eraseIdx i).count y = w.raw.count y := by
        exact (erase_perm hx).count_eq y
      rw [List.count_cons] at e
      simp only [all, List.count_append, List.count_nil, List.count_cons, List.nil_append] at this ⊢
      omega
  | clone i ok =>
    simp only [step]
    cases hx : w.maps[i]? with
    | none => exact h
    | some m => exact inv_keep (clone_gives hf h (List.mem_of_getElem? hx))
  | close i =>
    simp only [step]
    cases hx : w.maps[i]? with
    | none => exact h
    | some m =>
      obtain ⟨a, b, h1, h2⟩ := split_at hx
      dsimp only
      have key : Inv kn base { w with maps := w.maps.set i { m with fd := none } } (entries m) := by
        refine ⟨?_, h.nodup, h.single, ?_, h.btf⟩
        · have ht := h.table
          rw [List.perm_iff_count] at ht ⊢
          intro y
          have := ht y
          simp only [all, h1, List.count_append, List.count_nil, List.nil_append, List.flatMap_append, List.flatMap_cons] at this
          simp only [all, h2, List.count_append, List.flatMap_append, List.flatMap_cons]
          have e : (entries { m with fd := none }).count y = 0 := rfl
          omega
        · intro q hq
          simp only [h2] at hq
          rcases List.mem_append.mp hq with hq | hq
          · exact h.good q (by rw [h1]; exact List.mem_append_left _ hq)
          · rcases List.mem_cons.mp hq with rfl | hq
            · exact h.good m (by rw [h1]; simp)
            · exact h.good q (by rw [h1]; exact List.mem_append_right _ (List.mem_cons_of_mem _ hq))
      unfold Map.close
      cases hfd : m.fd with
      | none => simpa [entries, hfd, FD.close] using key
      | some n =>
        rw [show entries m = [(n, .map m.mid)] by simp [entries, hfd]] at key
        exact inv_close key
  | forget i =>
    simp only [step]
    cases hx : w.maps[i]? with
    | none => exact h
    | some m =>
      refine ⟨?_, h.nodup, h.single, ?_, h.btf⟩
      · have ht := h.table
        rw [List.perm_iff_count] at ht ⊢
        intro y
        have := ht y
        have e : ((m :: w.maps.eraseIdx i).flatMap entries).count y = (w.maps.flatMap entries).count y := by
          exact ((erase_perm hx).flatMap_right entries).count_eq y
        rw [List.flatMap_cons, List.count_append] at e
        simp only [all, List.count_append, List.count_nil, List.nil_append] at this ⊢
        omega
      · intro q hq
        exact h.good q (List.mem_of_mem_eraseIdx hq)
  | handle i info c =>
    simp only [step]
    cases hx : w.maps[i]? with
    | none => exact h
    | some m =>
      dsimp only
      have none_ok : Inv kn base { w with handles := w.handles ++ [none] } [] := by
        refine ⟨?_, h.nodup, h.single, h.good, ?_⟩
        · have := h.table
          simpa [all, handleEntries] using this
        · intro fd bid hm
          rcases List.mem_append.mp hm with hm | hm
          · exact h.btf fd bid hm
          · simp at hm
      unfold Map.handle
      by_cases hc : m.fd = none ∨ info = false ∨ kn.btf m.mid = 0
      · rw [if_pos hc]; exact none_ok
      · rw [if_neg hc]
        unfold handleFromID
        cases hb : c.byID with
        | false => exact none_ok
        | true =>
          rw [if_pos rfl]
          dsimp only
          cases hh : c.hinfo with
          | false =>
            simp only [Bool.false_eq_true, if_false]
            rw [open_close hf h.nodup]
            exact none_ok
          | true =>
            simp only [if_true, Option.map_some]
            have ho := inv_open hf h (.btf (kn.btf m.mid))
            refine ⟨?_, ho.nodup, ho.single, ho.good, ?_⟩
            · have ht := ho.table
              rw [List.perm_iff_count] at ht ⊢
              intro y
              have := ht y
              simp only [all, handleEntries, List.count_append, List.count_nil, List.nil_append, List.count_cons, List.flatMap_append, List.flatMap_cons, List.flatMap_nil,
                Option.toList, List.map_cons, List.map_nil] at this ⊢
              omega
            · intro fd bid hm
              rcases List.mem_append.mp hm with hm | hm
              · exact h.btf fd bid hm
              · simp at hm
                rw [hm.2]
                exact fun e => hc (.inr (.inr e))
  | closeHandle j =>
    simp only [step]
    cases hx : w.handles[j]? with
    | none => exact h
    | some x =>
      obtain ⟨a, b, h1, h2⟩ := split_at hx
      dsimp only
      have key : Inv kn base { w with handles := w.handles.set j none } (handleEntries x) := by
        refine ⟨?_, h.nodup, h.single, h.good, ?_⟩
        · have ht := h.table
          rw [List.perm_iff_count] at ht ⊢
          intro y
          have := ht y
          simp only [all, h1, List.count_append, List.count_nil, List.nil_append, List.flatMap_append, List.flatMap_cons] at this
          simp only [all, h2, List.count_append, List.flatMap_append, List.flatMap_cons]
          have e : (handleEntries none).count y = 0 := rfl
          omega
        · intro fd bid hm
          simp only [h2] at hm
          rcases List.mem_append.mp hm with hm | hm
          · exact h.btf fd bid (by rw [h1]; exact List.mem_append_left _ hm)
          · rcases List.mem_cons.mp hm with hm | hm
            · cases hm
            · exact h.btf fd bid (by rw [h1]; exact List.mem_append_right _ (List.mem_cons_of_mem _ hm))
      cases x with
      | none => exact key
      | some x => exact inv_close (fd := x.1) (k := .btf x.2) key
  | memory i size rw' ro =>
    simp only [step]
    cases hx : w.maps[i]? with
    | none => exact h
    | some m =>
      obtain ⟨a, b, h1, h2⟩ := split_at hx
      obtain ⟨g1, g2, g3, l, g4⟩ := mem_good size rw' ro (h.good m (List.mem_of_getElem? hx))
      dsimp only
      generalize (m.mem size rw' ro w.mapped).2.1 = m' at *
      generalize (m.mem size rw' ro w.mapped).2.2 = mp at *
      have hgood : ∀ q ∈ w.maps, Good kn mp q := by
        intro q hq
        obtain ⟨k1, k2, k3⟩ := h.good q hq
        refine ⟨k1, k2, fun mm hmm => ?_⟩
        rw [g4]
        exact ⟨List.mem_append_left _ (k3 mm hmm).1, (k3 mm hmm).2⟩
      refine ⟨?_, h.nodup, h.single, ?_, h.btf⟩
      · have ht := h.table
        rw [List.perm_iff_count] at ht ⊢
        intro y
        have := ht y
        have e : entries m' = entries m := by simp [entries, g2, g3]
        simp only [all, h1, List.count_append, List.count_nil, List.nil_append, List.flatMap_append, List.flatMap_cons] at this
        simp only [all, h2, List.count_append, List.flatMap_append, List.flatMap_cons, List.nil_append, e]
        omega
      · intro q hq
        simp only [h2] at hq
        rcases List.mem_append.mp hq with hq | hq
        · exact hgood q (by rw [h1]; exact List.mem_append_left _ hq)
        · rcases List.mem_cons.mp hq with rfl | hq
          · exact g1
          · exact hgood q (by rw [h1]; exact List.mem_append_right _ (List.mem_cons_of_mem _ hq))
  | gc =>
    refine inv_gc w.garbage base { w with garbage := [] } [] ?_
    refine ⟨?_, h.nodup, h.single, h.good, h.btf⟩
    have ht := h.table
    rw [List.perm_iff_count] at ht ⊢
    intro y
    have := ht y
    simp only [all, List.count_append, List.count_nil, List.nil_append] at this ⊢
    omega

theorem inv_run (hf : Fresh pick) {base : List (Nat × K)} : ∀ (ops : List Op) (w : World), Inv kn base w [] → Inv kn base (run kn pick w ops) []
  | [], _, h => h
  | op :: ops, _, h => inv_run hf ops _ (inv_step hf h op)

theorem inv_start {raw base : List (Nat × K)} (hb : ((raw ++ base).map (·.1)).Nodup) : Inv kn base (start raw base) [] :=
  ⟨by simp [start, all], hb, rfl, (fun _ h => by cases h), (fun _ _ h => by cases h)⟩

/-- **C115.** After any sequence of operations every open descriptor has exactly one owner, none was closed twice, every map and handle that isn't closed
refers to what it did from the beginning, maps say what the kernel says, and their memory is mapped. -/
theorem history (hf : Fresh pick) (raw base : List (Nat × K)) (hb : ((raw ++ base).map (·.1)).Nodup) (ops : List Op) :
    Owned kn base (run kn pick (start raw base) ops) :=
  inv_owned (inv_run hf ops _ (inv_start hb))

/-- **C115.** When all maps and handles have been closed or forgotten and the garbage was collected, only the descriptors of others are open. -/
theorem nothing_left (hf : Fresh pick) (raw base : List (Nat × K)) (hb : ((raw ++ base).map (·.1)).Nodup) (ops : List Op)
    (hm : ∀ m ∈ (run kn pick (start raw base) ops).maps, m.fd = none) (hh : ∀ x ∈ (run kn pick (start raw base) ops).handles, x = none)
    (hr : (run kn pick (start raw base) ops).raw = []) :
    (run kn pick (start raw base) (ops ++ [.gc])).st.table.Perm base := by
  have e : run kn pick (start raw base) (ops ++ [.gc]) = step kn pick (run kn pick (start raw base) ops) .gc := by
    generalize start raw base = w
    induction ops generalizing w with
    | nil => rfl
    | cons op ops ih =>
      show run kn pick (step kn pick w op) (ops ++ [.gc]) = step kn pick (run kn pick (step kn pick w op) ops) .gc
      suffices h : ∀ (l : List Op) (w : World), run kn pick w (l ++ [.gc]) = step kn pick (run kn pick w l) .gc from h ops _
      intro l
      induction l with
      | nil => intro w; rfl
      | cons o l ih => intro w; exact ih _
  have h := inv_step hf (inv_run hf ops _ (inv_start (kn := kn) hb)) .gc
  rw [e]
  generalize run kn pick (start raw base) ops = w at *
  have ht := h.table
  have e1 : ∀ l : List Map, (∀ m ∈ l, m.fd = none) → l.flatMap entries = [] := by
    intro l hl
    rw [List.flatMap_eq_nil_iff]
    intro m hm'
    simp [entries, hl m hm']
  have e2 : ∀ l : List (Option (Nat × Nat)), (∀ m ∈ l, m = none) → l.flatMap handleEntries = [] := by
    intro l hl
    rw [List.flatMap_eq_nil_iff]
    intro m hm'
    rw [hl m hm']; rfl
  have : all (step kn pick w .gc) base = base := by
    show w.maps.flatMap entries ++ (w.handles.flatMap handleEntries ++ ([] ++ (w.raw ++ base))) = base
    rw [e1 _ hm, e2 _ hh, hr]
    rfl
  rw [this] at ht
  exact ht

/-! ## Each operation -/

/-- **C115.** `NewMapFromID` gives a map with what the kernel knows of it and a descriptor of its own; it fails iff a system call does, or the number of CPUs isn't known for a
map that has a value for each. If it fails no descriptor is left, except in the last case, in which one is left to the garbage collector. -/
theorem fromID_exact (hf : Fresh pick) (byID info : Bool) (cpus : Option Nat) (mid : Nat) (w : World) (hd : (w.st.table.map (·.1)).Nodup) :
    ((fromID kn pick byID info cpus mid w).1 ≠ none ↔ byID = true ∧ info = true ∧ (PerCPU (kn.attr mid).typ → cpus ≠ none)) ∧
    (∀ m, (fromID kn pick byID info cpus mid w).1 = some m → New kn mid m [] w.st.table (fromID kn pick byID info cpus mid w).2 ∧
      (fromID kn pick byID info cpus mid w).2.garbage = w.garbage) ∧
    ((fromID kn pick byID info cpus mid w).1 = none → (fromID kn pick byID info cpus mid w).2 = w ∨
      (byID = true ∧ info = true ∧ PerCPU (kn.attr mid).typ ∧ cpus = none ∧ ∃ fd, fd ∉ w.st.table.map (·.1) ∧
        (fromID kn pick byID info cpus mid w).2.garbage = (fd, .map mid) :: w.garbage ∧ (fromID kn pick byID info cpus mid w).2.st.table = (fd, .map mid) :: w.st.table)) := by
  unfold fromID
  cases byID with
  | false => simp
  | true =>
    rw [if_pos rfl]
    unfold newMapFromFD
    cases info with
    | false =>
      rw [if_pos rfl]
      simp [open_close hf hd]
    | true =>
      rw [if_neg (by decide)]
      cases hp : newMapFromParts cpus (openFd pick (.map mid) w.st).1 mid (kn.attr mid) with
      | none =>
        unfold newMapFromParts at hp
        by_cases hc : MapCreate.hasPerCPU (kn.attr mid).typ = false
        · rw [if_pos hc] at hp; cases hp
        · rw [if_neg hc] at hp
          have hc' : PerCPU (kn.attr mid).typ := (perCPU_iff _).mp (by simpa using hc)
          cases cpus with
          | some n => cases hp
          | none =>
            refine ⟨by simp [hc'], (fun m hm => by cases hm), fun _ => .inr ⟨rfl, rfl, hc', rfl, _, hf _, rfl, rfl⟩⟩
      | some m =>
        obtain ⟨h1, h2, h3, h4, h5, h6⟩ := parts_good hp
        refine ⟨?_, ?_, by simp⟩
        · simp only [ne_eq, reduceCtorEq, not_false_eq_true, true_and, true_iff]
          intro hc hn
          subst hn
          unfold newMapFromParts at hp
          rw [if_neg (by rw [(perCPU_iff _).mpr hc]; decide)] at hp
          cases hp
        · intro q hq
          cases hq
          exact ⟨⟨h1, h2, h3, h4, h5, _, h6, hf _, rfl⟩, rfl⟩

/-- **C115.** `LoadPinnedMap` gives a map only if a map is pinned there; the map knows its path. Whatever else is pinned there, no descriptor is left. -/
theorem loadPinned_exact (hf : Fresh pick) (path : Bytes) (target : Option K) (link info : Bool) (cpus : Option Nat) (w : World) (hd : (w.st.table.map (·.1)).Nodup) :
    ((loadPinned kn pick path target link info cpus w).1 ≠ none ↔
      ∃ mid, target = some (.map mid) ∧ link = true ∧ info = true ∧ (PerCPU (kn.attr mid).typ → cpus ≠ none)) ∧
    (∀ m, (loadPinned kn pick path target link info cpus w).1 = some m → ∃ mid, target = some (.map mid) ∧
      New kn mid m path w.st.table (loadPinned kn pick path target link info cpus w).2) ∧
    ((loadPinned kn pick path target link info cpus w).1 = none → (loadPinned kn pick path target link info cpus w).2 = w ∨
      (∃ mid, target = some (.map mid) ∧ link = true ∧ info = true ∧ PerCPU (kn.attr mid).typ ∧ cpus = none)) := by
  unfold loadPinned
  cases target with
  | none => simp
  | some k =>
    dsimp only
    cases link with
    | false => rw [if_pos rfl, open_close hf hd]; simp
    | true =>
      rw [if_neg (by decide)]
      cases k with
      | prog p => simp [open_close hf hd]
      | btf b => simp [open_close hf hd]
      | map mid =>
        have hx := fromID_exact (kn := kn) hf true info cpus mid w hd
        unfold fromID at hx
        rw [if_pos rfl] at hx
        dsimp only
        generalize newMapFromFD kn info cpus (openFd pick (.map mid) w.st).1 mid { w with st := (openFd pick (.map mid) w.st).2 } = r at hx ⊢
        obtain ⟨m, w'⟩ := r
        obtain ⟨a, b, c⟩ := hx
        cases m with
        | none =>
          dsimp only at *
          refine ⟨?_, (fun m hm => by cases hm), ?_⟩
          · constructor
            · intro h; exact absurd rfl h
            · rintro ⟨j, hj, _, h2, h3⟩
              cases hj
              exact absurd rfl (a.mpr ⟨rfl, h2, h3⟩)
          · intro _
            rcases c rfl with c | ⟨_, c1, c2, c3, _⟩
            · exact .inl c
            · exact .inr ⟨mid, rfl, rfl, c1, c2, c3⟩
        | some m =>
          dsimp only at *
          refine ⟨?_, ?_, (fun h => by cases h)⟩
          · have := a.mp (by simp)
            exact ⟨fun _ => ⟨mid, rfl, rfl, this.2.1, this.2.2⟩, fun _ => by simp⟩
          · intro q hq
            cases hq
            obtain ⟨n, _⟩ := b m rfl
            exact ⟨mid, rfl, n.attrs, n.same, n.full, n.unmapped, rfl, n.fd⟩

/-- **C115.** A clone is a map of its own: of the same map in the kernel, with the same attributes, not pinned, without memory, and with a new descriptor. Cloning fails iff the map
is closed or the descriptor can't be duplicated, and then nothing has changed. -/
theorem clone_exact (hf : Fresh pick) (ok : Bool) (m : Map) (s : St) (hd : (s.table.map (·.1)).Nodup) (hm : ∀ fd, m.fd = some fd → (fd, .map m.mid) ∈ s.table) :
    ((m.clone pick ok s).1 ≠ none ↔ m.fd ≠ none ∧ ok = true) ∧
    (∀ q, (m.clone pick ok s).1 = some q → q.attr = m.attr ∧ q.mid = m.mid ∧ q.fullValueSize = m.fullValueSize ∧ q.pinnedPath = [] ∧ q.memory = none ∧
      ∃ fd, q.fd = some fd ∧ fd ∉ s.table.map (·.1) ∧ (m.clone pick ok s).2.table = (fd, .map m.mid) :: s.table) ∧
    ((m.clone pick ok s).1 = none → (m.clone pick ok s).2 = s) := by
  have hc : m.clone pick ok s = if m.fd ≠ none ∧ ok = true then
      (some ⟨m.attr, some (openFd pick (.map m.mid) s).1, m.mid, [], m.fullValueSize, none⟩, (openFd pick (.map m.mid) s).2) else (none, s) := by
    unfold Map.clone dup
    cases hfd : m.fd with
    | none => simp
    | some n =>
      dsimp only
      rw [mem_lookup hd (hm n hfd)]
      cases ok <;> simp
  rw [hc]
  by_cases h : m.fd ≠ none ∧ ok = true
  · rw [if_pos h]
    refine ⟨by simp [h], ?_, (fun h => by cases h)⟩
    intro q hq
    cases hq
    exact ⟨rfl, rfl, rfl, rfl, rfl, _, rfl, hf _, rfl⟩
  · rw [if_neg h]
    refine ⟨by simp [h], (fun q hq => by cases hq), fun _ => rfl⟩

/-- **C115.** Closing a map closes its descriptor and no other; closing it again does nothing. Its memory stays. -/
theorem close_exact (m : Map) (s : St) (hd : (s.table.map (·.1)).Nodup) :
    (m.close s).1 = { m with fd := none } ∧ (∀ x, x ∈ (m.close s).2.table ↔ x ∈ s.table ∧ m.fd ≠ some x.1) ∧
    (m.fd = none → (m.close s).2 = s) := by
  refine ⟨rfl, ?_, ?_⟩
  · intro x
    unfold Map.close
    cases hfd : m.fd with
    | none => simp [FD.close]
    | some n =>
      simp only [FD.close, closeFd]
      rw [ProgHandles.eraseP_filter hd]
      simp only [List.mem_filter, bne_iff_ne, ne_eq, Option.some.injEq]
      exact and_congr_right fun _ => not_congr eq_comm
  · intro h
    unfold Map.close
    rw [h]; rfl

/-- **C115.** `Memory` gives the mapping it gave before, if it did. Otherwise it needs the map to be open and mappable and its size to be known; the mapping is of that size,
writable if that is permitted, else (and only then) read-only; and the map keeps it. If it fails nothing has changed. -/
theorem memory_exact (size : Option Nat) (rw ro : Mmap) (m : Map) (mapped : List Mem) :
    (∀ mm, m.memory = some mm → m.mem size rw ro mapped = (some mm, m, mapped)) ∧
    (m.memory = none →
      (∀ mm, (m.mem size rw ro mapped).1 = some mm ↔ m.attr.flags.getLsbD 10 = true ∧ m.fd ≠ none ∧ size = some mm.size ∧ mm.addr = mapped.length ∧ mm.heap = false ∧
        ((rw = .ok ∧ mm.ro = false) ∨ ((rw = .eperm ∨ rw = .eacces) ∧ ro = .ok ∧ mm.ro = true))) ∧
      (∀ mm, (m.mem size rw ro mapped).1 = some mm → (m.mem size rw ro mapped).2 = ({ m with memory := some mm }, mapped ++ [mm])) ∧
      ((m.mem size rw ro mapped).1 = none → (m.mem size rw ro mapped).2 = (m, mapped))) := by
  constructor
  · intro mm h
    unfold Map.mem
    rw [h]
  · intro h
    unfold Map.mem
    rw [h]
    dsimp only
    by_cases hfl : m.attr.flags &&& 0x400 = 0
    · rw [if_pos hfl]
      have := (memory_flag _).mp hfl
      refine ⟨fun mm => by rw [this]; simp, (fun mm hm => by cases hm), fun _ => rfl⟩
    · rw [if_neg hfl]
      have hb : m.attr.flags.getLsbD 10 = true := by
        cases hb : m.attr.flags.getLsbD 10 with
        | true => rfl
        | false => exact absurd ((memory_flag _).mpr hb) hfl
      cases size with
      | none => exact ⟨fun mm => by simp, (fun mm hm => by cases hm), fun _ => rfl⟩
      | some n =>
        dsimp only
        have key : ∀ mm, newMemory (if m.fd = none then .other else rw) ro mapped.length n = some mm ↔
            m.fd ≠ none ∧ n = mm.size ∧ mm.addr = mapped.length ∧ mm.heap = false ∧ ((rw = .ok ∧ mm.ro = false) ∨ ((rw = .eperm ∨ rw = .eacces) ∧ ro = .ok ∧ mm.ro = true)) := by
          rintro ⟨a, sz, r, hp⟩
          by_cases hfd : m.fd = none
          · rw [if_pos hfd]; simp [newMemory, hfd]
          · rw [if_neg hfd]
            cases rw <;> cases ro <;> cases r <;> cases hp <;> simp [newMemory, hfd, and_comm, eq_comm]
        cases hn : newMemory (if m.fd = none then .other else rw) ro mapped.length n with
        | none =>
          refine ⟨fun mm => ?_, (fun mm hm => by cases hm), fun _ => rfl⟩
          have := key mm
          rw [hn] at this
          simp only [reduceCtorEq, false_iff] at this ⊢
          intro hx
          exact this ⟨hx.2.1, Option.some.inj hx.2.2.1, hx.2.2.2⟩
        | some q =>
          refine ⟨fun mm => ?_, (fun mm hm => by cases hm; rfl), (fun hm => by cases hm)⟩
          have := key mm
          rw [hn] at this
          dsimp only
          rw [this]
          simp only [hb, true_and, Option.some.injEq]

/-- **C115.** `Handle` gives a new handle of the map's BTF, or fails, leaving nothing behind: if the map is closed, has no BTF, or a system call fails. -/
theorem handle_exact (hf : Fresh pick) (info : Bool) (c : Calls) (m : Map) (s : St) (hd : (s.table.map (·.1)).Nodup) :
    ((m.handle kn pick info c s).1 ≠ none ↔ m.fd ≠ none ∧ info = true ∧ kn.btf m.mid ≠ 0 ∧ c.byID = true ∧ c.hinfo = true) ∧
    (∀ fd bid, (m.handle kn pick info c s).1 = some (fd, bid) → bid = kn.btf m.mid ∧ fd ∉ s.table.map (·.1) ∧ (m.handle kn pick info c s).2.table = (fd, .btf bid) :: s.table) ∧
    ((m.handle kn pick info c s).1 = none → (m.handle kn pick info c s).2 = s) := by
  unfold Map.handle
  by_cases hc : m.fd = none ∨ info = false ∨ kn.btf m.mid = 0
  · rw [if_pos hc]
    refine ⟨?_, (fun _ _ h => by cases h), fun _ => rfl⟩
    simp only [ne_eq, not_true_eq_false, false_iff]
    rintro ⟨h1, h2, h3, _⟩
    rcases hc with hc | hc | hc
    · exact h1 hc
    · rw [h2] at hc; cases hc
    · exact h3 hc
  · rw [if_neg hc]
    simp only [not_or] at hc
    unfold handleFromID
    cases hb : c.byID with
    | false => simp
    | true =>
      rw [if_pos rfl]
      dsimp only
      cases hh : c.hinfo with
      | false => simp [open_close hf hd]
      | true =>
        simp only [if_true]
        refine ⟨by simp [hc.1, hc.2.2, hc.2.1], ?_, (fun h => by cases h)⟩
        intro fd bid h
        cases h
        exact ⟨rfl, hf _, rfl⟩

/-! ## The hypotheses are met -/

/-- A per-CPU map and a mappable array. -/
def exampleKernel : Kernel := ⟨fun mid => if mid = 1 then ⟨[0x61], 6, 4, 12, 3, 0⟩ else ⟨[0x62], 2, 4, 8, 100, 0x400⟩, fun mid => if mid = 1 then 0 else 7⟩

/-- Map 1 by ID (16 bytes on each of 4 CPUs); map 2 from the user's descriptor 0; a clone; closing the original; memory of the clone; a handle; map 1 again, for which the number of CPUs can't be found. -/
example : let w := run exampleKernel above (start [(0, .map 2)] [(5, .prog 9)]) [.fromID 1 true true (some 4), .fromRaw 0 true true none, .clone 1 true, .close 1, .memory 2 (some 4096) .eperm .ok, .handle 2 true ⟨true, true, true, true, true⟩, .fromID 1 true true none];
    (w.maps.map fun m => (m.fd.isSome, m.mid, m.fullValueSize, m.memory.map (·.ro))) = [(true, 1, 64, none), (false, 2, 8, none), (true, 2, 8, some true)] ∧
    w.handles.map (·.map (·.2)) = [some 7] ∧ w.garbage.length = 1 ∧ w.st.table.length = 5 ∧ w.raw = [] := by decide

example : Fresh above := above_fresh

end Ebpf.MapHandles
