import Verif.Spec.MapIter
/-! # C14: map iteration -/
namespace Ebpf.MapIter

variable {σ K V : Type}

/-- Calls and count run in step, except that the call that ends the iteration is not counted. -/
def Ok (mi : Iter K) : Prop :=
  mi.maxEntries ≠ 0xffffffff ∧ mi.count.toNat ≤ mi.maxEntries.toNat + 1 ∧
  mi.calls ≤ mi.maxEntries.toNat + 1 ∧
  (mi.err = none → mi.done = false → mi.calls = mi.count.toNat)

theorem max_lt (m : BitVec 32) (h : m ≠ 0xffffffff) : m.toNat + 1 < 2 ^ 32 := by
  have h1 := m.isLt
  have : m.toNat ≠ 0xffffffff := fun e => h (BitVec.eq_of_toNat_eq e)
  omega

theorem loop_ok (k : Kernel σ K V) (fuel : Nat) (s : σ) (mi : Iter K) (h : Ok mi) (hc : mi.calls = mi.count.toNat)
    (hf : mi.maxEntries.toNat + 2 ≤ fuel + mi.count.toNat) :
    ∃ s' mi' r, loop k fuel s mi = some (s', mi', r) ∧ Ok mi' ∧ mi'.maxEntries = mi.maxEntries ∧
      (r = none → mi'.err.isSome ∨ mi'.done = true) ∧ (r.isSome → mi'.err = none ∧ mi'.done = mi.done) := by
  induction fuel generalizing s mi with
  | zero => obtain ⟨_, h2, _⟩ := h; omega
  | succ fuel ih =>
    obtain ⟨h1, h2, h3, h4⟩ := h
    have hm := max_lt _ h1
    unfold loop
    by_cases hle : mi.count ≤ mi.maxEntries
    · rw [if_pos hle]
      rw [BitVec.le_def] at hle
      have hcnt : (mi.count + 1).toNat = mi.count.toNat + 1 := by
        rw [BitVec.toNat_add]
        have : (1 : BitVec 32).toNat = 1 := rfl
        rw [this]; omega
      rcases hn : k.nextKey s mi.cursor with ⟨s1, a⟩
      cases a with
      | notExist =>
        refine ⟨_, _, _, rfl, ⟨h1, h2, ?_, ?_⟩, rfl, ?_, ?_⟩ <;> simp <;> omega
      | fail =>
        refine ⟨_, _, _, rfl, ⟨h1, h2, ?_, ?_⟩, rfl, ?_, ?_⟩ <;> simp <;> omega
      | ok key =>
        dsimp only
        rcases hl : k.lookup s1 key with ⟨s2, b⟩
        cases b with
        | notExist =>
          have := ih s2 { mi with calls := mi.calls + 1, cursor := some key, count := mi.count + 1 }
            ⟨h1, by simp only [hcnt]; omega, by simp only []; omega, fun _ _ => by simp only [hcnt]; omega⟩
            (by simp only [hcnt]; omega) (by simp only [hcnt]; omega)
          obtain ⟨s', mi', r, e1, e2, e3, e4, e5⟩ := this
          exact ⟨s', mi', r, e1, e2, e3, e4, e5⟩
        | fail =>
          refine ⟨_, _, _, rfl, ⟨h1, ?_, ?_, ?_⟩, rfl, ?_, ?_⟩ <;> simp [hcnt] <;> omega
        | ok v =>
          refine ⟨_, _, _, rfl, ⟨h1, ?_, ?_, ?_⟩, rfl, ?_, ?_⟩ <;> simp [hcnt] <;> omega
    · rw [if_neg hle]
      refine ⟨_, _, _, rfl, ⟨h1, h2, h3, ?_⟩, rfl, ?_, ?_⟩ <;> simp

theorem next_ok (k : Kernel σ K V) (fuel : Nat) (s : σ) (mi : Iter K) (h : Ok mi) (hf : mi.maxEntries.toNat + 2 ≤ fuel) :
    ∃ s' mi' r, next k fuel s mi = some (s', mi', r) ∧ Ok mi' ∧ mi'.maxEntries = mi.maxEntries ∧
      (r = none → mi'.err.isSome ∨ mi'.done = true) := by
  unfold next
  by_cases hd : (mi.err.isSome || mi.done) = true
  · rw [if_pos hd]
    exact ⟨s, mi, none, rfl, h, rfl, fun _ => by simpa using hd⟩
  · rw [if_neg hd]
    simp at hd
    obtain ⟨s', mi', r, e1, e2, e3, e4, _⟩ := loop_ok k fuel s mi h (h.2.2.2 hd.1 hd.2) (by omega)
    exact ⟨s', mi', r, e1, e2, e3, e4⟩

theorem collect_ok (k : Kernel σ K V) (fuel n : Nat) (s : σ) (mi : Iter K) (h : Ok mi) (hf : mi.maxEntries.toNat + 2 ≤ fuel) :
    ∃ s' mi' kvs e, collect k fuel n s mi = some (s', mi', kvs, e) ∧ Ok mi' ∧ mi'.maxEntries = mi.maxEntries := by
  induction n generalizing s mi with
  | zero => exact ⟨s, mi, [], false, rfl, h, rfl⟩
  | succ n ih =>
    obtain ⟨s1, mi1, r, e1, e2, e3, _⟩ := next_ok k fuel s mi h hf
    unfold collect
    rw [e1]
    cases r with
    | none => exact ⟨s1, mi1, [], true, rfl, e2, e3⟩
    | some kv =>
      dsimp only
      obtain ⟨s2, mi2, kvs, e, c1, c2, c3⟩ := ih s1 mi1 e2 (by rw [e3]; exact hf)
      rw [c1]
      exact ⟨s2, mi2, kv :: kvs, e, rfl, c2, c3.trans e3⟩

/-- **C14**, bound (proved part). Whatever the kernel answers and however often `Next` is called, every
call to `Next` returns, and the whole iteration makes at most `MaxEntries + 1` next-key calls.
Requires `MaxEntries < 2^32 - 1`. -/
theorem iteration_bounded_partial (k : Kernel σ K V) (maxEntries : BitVec 32) (hm : maxEntries ≠ 0xffffffff)
    (n : Nat) (s : σ) :
    ∃ s' mi' kvs e, collect k (maxEntries.toNat + 2) n s (newIter maxEntries) = some (s', mi', kvs, e) ∧
      mi'.calls ≤ maxEntries.toNat + 1 := by
  obtain ⟨s', mi', kvs, e, h1, h2, h3⟩ := collect_ok k (maxEntries.toNat + 2) n s (newIter maxEntries)
    ⟨hm, by simp [newIter], by simp [newIter], fun _ _ => by simp [newIter]⟩ (by simp [newIter])
  refine ⟨s', mi', kvs, e, h1, ?_⟩
  have := h2.2.2.1
  rw [h3] at this
  exact this

/-- The number of entries yielded is bounded as well, so the user's loop ends. -/
theorem next_false_ends (k : Kernel σ K V) (maxEntries : BitVec 32) (s : σ) (mi : Iter K)
    (h : Ok mi) (he : mi.maxEntries = maxEntries) :
    ∃ s' mi' r, next k (maxEntries.toNat + 2) s mi = some (s', mi', r) ∧
      (r = none → mi'.err.isSome ∨ mi'.done = true) := by
  obtain ⟨s', mi', r, e1, _, _, e4⟩ := next_ok k (maxEntries.toNat + 2) s mi h (by rw [he]; omega)
  exact ⟨s', mi', r, e1, e4⟩

/-- A kernel that always has a next key and never a value (for instance because of concurrent deletes). -/
def endless : Kernel Unit Unit Unit := ⟨fun s _ => (s, .ok ()), fun s _ => (s, .notExist)⟩

/-- With `MaxEntries = 2^32 - 1` the counter wraps and `Next` need not return: no number of rounds
suffices for the `endless` kernel. -/
theorem iteration_unbounded_counterexample (fuel : Nat) :
    next endless fuel () (newIter 0xffffffff) = none := by
  have : ∀ (fuel : Nat) (mi : Iter Unit), mi.maxEntries = 0xffffffff → loop endless fuel () mi = none := by
    intro fuel
    induction fuel with
    | zero => intro mi _; rfl
    | succ fuel ih =>
      intro mi hmi
      unfold loop
      rw [if_pos (by rw [BitVec.le_def, hmi]; have := mi.count.isLt; exact Nat.le_of_lt_succ this)]
      simp only [endless]
      exact ih _ hmi
  unfold next
  rw [if_neg (by simp [newIter])]
  exact this fuel _ rfl

/-! ## Completeness on an unmodified map -/

section
variable [DecidableEq K]

theorem after_append (pre : List K) (x : K) (post : List K) (h : x ∉ pre) : after (pre ++ x :: post) x = post.head? := by
  induction pre with
  | nil => simp [after]
  | cons a pre ih =>
    simp at h
    simp only [List.cons_append, after]
    rw [if_neg (by intro e; exact h.1 e.symm)]
    exact ih h.2

/-- Key the iterator is at, after having seen `pre`. -/
def cursorOf (pre : List K) : Option K := pre.getLast?

theorem honest_next (ks pre post : List K) (hks : ks = pre ++ post) (val : K → Option V) (hn : ks.Nodup) :
    (honest ks val).nextKey () (cursorOf pre) =
      ((), match post.head? with | some x => .ok x | none => .notExist) := by
  subst hks
  unfold honest cursorOf
  rcases List.eq_nil_or_concat pre with rfl | ⟨p, x, hp⟩
  · rfl
  · rw [List.concat_eq_append] at hp
    subst hp
    have hx : x ∉ p := by
      intro hx
      rw [List.append_assoc, List.nodup_append] at hn
      exact hn.2.2 x hx x (by simp) rfl
    rw [List.getLast?_append]
    simp only [List.getLast?_singleton, Option.some_or, List.append_assoc, List.singleton_append, after_append p x post hx]
    cases post.head? <;> rfl

/-- One round of the loop after having seen `pre`. -/
def oneRound (ks : List K) (val : K → Option V) (m : BitVec 32) (pre : List K) (fuel calls : Nat) :
    List K → Option (Unit × Iter K × Option (K × V))
  | [] => some ((), ⟨cursorOf pre, BitVec.ofNat 32 pre.length, m, true, none, calls + 1⟩, none)
  | x :: _ =>
    match val x with
    | some v => some ((), ⟨cursorOf (pre ++ [x]), BitVec.ofNat 32 (pre ++ [x]).length, m, false, none, calls + 1⟩, some (x, v))
    | none => loop (honest ks val) fuel () ⟨cursorOf (pre ++ [x]), BitVec.ofNat 32 (pre ++ [x]).length, m, false, none, calls + 1⟩

theorem honest_loop (ks : List K) (val : K → Option V) (m : BitVec 32) (hm : m ≠ 0xffffffff) (hlen : ks.length ≤ m.toNat)
    (hn : ks.Nodup) (pre post : List K) (hks : ks = pre ++ post) (fuel : Nat) (hf : post.length < fuel) (calls : Nat) :
    loop (honest ks val) fuel () ⟨cursorOf pre, BitVec.ofNat 32 pre.length, m, false, none, calls⟩ =
      oneRound ks val m pre (fuel - 1) calls post := by
  have hm' := max_lt m hm
  have hl : pre.length ≤ m.toNat := by rw [hks, List.length_append] at hlen; omega
  cases fuel with
  | zero => omega
  | succ fuel =>
    rw [loop.eq_2]
    dsimp only
    rw [if_pos (by rw [BitVec.le_def, BitVec.toNat_ofNat]; omega), honest_next ks pre post hks val hn]
    cases post with
    | nil => rfl
    | cons x rest =>
      have ec : cursorOf (pre ++ [x]) = some x := by simp [cursorOf]
      have en : BitVec.ofNat 32 pre.length + 1 = BitVec.ofNat 32 (pre ++ [x]).length := by
        rw [List.length_append]
        apply BitVec.eq_of_toNat_eq
        simp [BitVec.toNat_add]
      simp only [List.head?_cons, ec, en, oneRound, Nat.add_sub_cancel]
      have hl : ∀ u, (honest ks val).lookup u x = (u, match val x with | some v => .ok v | none => .notExist) := fun _ => rfl
      rw [hl]
      cases val x <;> rfl

theorem honest_next_spec (ks : List K) (val : K → Option V) (m : BitVec 32) (hm : m ≠ 0xffffffff) (hlen : ks.length ≤ m.toNat)
    (hn : ks.Nodup) (pre post : List K) (hks : ks = pre ++ post) (fuel : Nat) (hf : post.length < fuel) (calls : Nat) :
    (entries post val = [] ∧ ∃ c n calls', loop (honest ks val) fuel () ⟨cursorOf pre, BitVec.ofNat 32 pre.length, m, false, none, calls⟩ =
        some ((), ⟨c, n, m, true, none, calls'⟩, none)) ∨
    (∃ mid x v rest calls', post = mid ++ x :: rest ∧ val x = some v ∧ entries post val = (x, v) :: entries rest val ∧
      loop (honest ks val) fuel () ⟨cursorOf pre, BitVec.ofNat 32 pre.length, m, false, none, calls⟩ =
        some ((), ⟨cursorOf (pre ++ mid ++ [x]), BitVec.ofNat 32 (pre ++ mid ++ [x]).length, m, false, none, calls'⟩, some (x, v))) := by
  induction post generalizing pre fuel calls with
  | nil =>
    left
    rw [honest_loop ks val m hm hlen hn pre [] hks fuel hf calls]
    exact ⟨rfl, _, _, _, rfl⟩
  | cons x rest ih =>
    rw [honest_loop ks val m hm hlen hn pre (x :: rest) hks fuel hf calls]
    simp only [oneRound]
    cases hv : val x with
    | some v =>
      right
      exact ⟨[], x, v, rest, calls + 1, rfl, hv, by simp [entries, hv], by simp [hv]⟩
    | none =>
      dsimp only
      simp only [List.length_cons] at hf
      rcases ih (pre ++ [x]) (by rw [hks]; simp) (fuel - 1) (by omega) (calls + 1) with ⟨h1, h2⟩ | ⟨mid, y, v, rest', c', h1, h2, h3, h4⟩
      · left
        refine ⟨?_, h2⟩
        simp only [entries, List.filterMap_cons, hv, Option.map_none]
        exact h1
      · right
        refine ⟨x :: mid, y, v, rest', c', by rw [h1]; rfl, h2, ?_, ?_⟩
        · simp only [entries, List.filterMap_cons, hv, Option.map_none]
          exact h3
        · rw [h4]; simp

theorem honest_collect (ks : List K) (val : K → Option V) (m : BitVec 32) (hm : m ≠ 0xffffffff) (hlen : ks.length ≤ m.toNat)
    (hn : ks.Nodup) (n : Nat) (pre post : List K) (hks : ks = pre ++ post) (hpl : post.length < n) (calls : Nat) :
    ∃ mi', collect (honest ks val) (m.toNat + 2) n () ⟨cursorOf pre, BitVec.ofNat 32 pre.length, m, false, none, calls⟩ =
      some ((), mi', entries post val, true) ∧ mi'.err = none := by
  induction n generalizing pre post calls with
  | zero => omega
  | succ n ih =>
    have hpost : post.length < m.toNat + 2 := by rw [hks, List.length_append] at hlen; omega
    unfold collect next
    rw [if_neg (by simp)]
    rcases honest_next_spec ks val m hm hlen hn pre post hks (m.toNat + 2) hpost calls with ⟨h1, c, nn, c', h2⟩ | ⟨mid, x, v, rest, c', h1, h2, h3, h4⟩
    · rw [h2]
      dsimp only
      exact ⟨_, by rw [h1], rfl⟩
    · rw [h4]
      dsimp only
      obtain ⟨mi', e1, e2⟩ := ih (pre ++ mid ++ [x]) rest (by rw [hks, h1]; simp) (by rw [h1] at hpl; simp at hpl; omega) c'
      rw [e1]
      exact ⟨mi', by rw [h3], e2⟩

/-- **C14**, completeness. On an unmodified map with at most `MaxEntries` distinct keys, calling `Next`
until it returns false yields every key that has a value, exactly once, in the kernel's order, with its
value, and the iteration ends without error. -/
theorem iteration_complete (ks : List K) (val : K → Option V) (maxEntries : BitVec 32) (hm : maxEntries ≠ 0xffffffff)
    (hlen : ks.length ≤ maxEntries.toNat) (hn : ks.Nodup) (n : Nat) (hcalls : ks.length < n) :
    ∃ mi', collect (honest ks val) (maxEntries.toNat + 2) n () (newIter maxEntries) = some ((), mi', entries ks val, true) ∧
      mi'.err = none :=
  honest_collect ks val maxEntries hm hlen hn n [] ks rfl hcalls 0

end

/-- Non-vacuity: a program array with 3 slots, slot 1 empty. -/
example : (collect (honest [10, 11, 12] fun k : Nat => if k = 11 then none else some (k * 2)) 5 4 () (newIter 3)).map
    (fun r => (r.2.2, r.2.1.calls)) = some (([(10, 20), (12, 24)], true), 4) := by decide

/-- Why `Next` returned false in state `s'`. -/
inductive Ended (k : Kernel σ K V) (s' : σ) (mi' : Iter K) : Prop where
  /-- The kernel said there is no further key: `Err` is nil. -/
  | complete (hd : mi'.done = true) (he : mi'.err = none) (s0 : σ) (h : k.nextKey s0 mi'.cursor = (s', .notExist))
  | nextKey (he : mi'.err = some .nextKey) (s0 : σ) (h : k.nextKey s0 mi'.cursor = (s', .fail))
  | lookup (he : mi'.err = some .lookup) (s0 : σ) (key : K) (hc : mi'.cursor = some key) (h : k.lookup s0 key = (s', .fail))
  | aborted (he : mi'.err = some .aborted) (h : mi'.maxEntries < mi'.count)

/-- C14. The first time `Next` returns false, `Err` tells exactly why: nil only if the kernel reported the end of
the map, ErrIterationAborted only if more keys than MaxEntries were seen, otherwise the failing system call. -/
theorem next_false_reason (k : Kernel σ K V) (fuel : Nat) (s s' : σ) (mi mi' : Iter K)
    (h1 : mi.done = false) (h2 : mi.err = none) (h : next k fuel s mi = some (s', mi', none)) : Ended k s' mi' := by
  have key : ∀ (fuel : Nat) (s : σ) (mi : Iter K), loop k fuel s mi = some (s', mi', none) → Ended k s' mi' := by
    intro fuel
    induction fuel with
    | zero => intro s mi h; simp [loop] at h
    | succ n ih =>
      intro s mi h
      simp only [loop] at h
      split at h
      · split at h
        next s1 hs =>
          simp only [Option.some.injEq, Prod.mk.injEq, and_true] at h
          obtain ⟨rfl, rfl⟩ := h
          exact .complete rfl rfl s hs
        next s1 hs =>
          simp only [Option.some.injEq, Prod.mk.injEq, and_true] at h
          obtain ⟨rfl, rfl⟩ := h
          exact .nextKey rfl s hs
        next s1 key hs =>
          split at h
          next s2 hl => exact ih _ _ h
          next s2 hl =>
            simp only [Option.some.injEq, Prod.mk.injEq, and_true] at h
            obtain ⟨rfl, rfl⟩ := h
            exact .lookup rfl s1 key rfl hl
          next s2 v hl => simp at h
      next hc =>
        simp only [Option.some.injEq, Prod.mk.injEq, and_true] at h
        obtain ⟨rfl, rfl⟩ := h
        exact .aborted rfl (by rw [BitVec.lt_def]; rw [BitVec.le_def] at hc; exact Nat.not_le.1 hc)
  unfold next at h
  rw [h1, h2] at h
  exact key _ _ _ (by simpa using h)

/-- Non-vacuity: a kernel whose first next-key call fails. -/
example : ∃ mi', next (⟨fun s _ => (s, .fail), fun s _ => (s, .notExist)⟩ : Kernel Unit Nat Nat) 5 () (newIter 3) = some ((), mi', none) ∧
    mi'.err = some .nextKey := ⟨_, rfl, rfl⟩

end Ebpf.MapIter
