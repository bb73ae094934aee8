import Verif.Props.MapOpsNested
/-! # C92: histories, the next key, bounds, counterexamples and examples -/
namespace Ebpf.MapOps
open Ebpf.Sysenc Ebpf.PerCPU

variable {m : GoMap} {k : KMap} {cpus ks vs : Nat} {typ : BitVec 32}

theorem keyIs_len (key : Arg) (n : Nat) (kb : Bytes) (h : KeyIs key n kb) : kb.length = n := by
  rcases h with h | ⟨-, h0, rfl⟩
  · exact encodes_len _ _ _ h
  · exact h0.symm

/-! ## Histories -/

/-- Something that happens to a map: an operation of the API with the key and the value that the Go
values stand for, or a change by someone else. -/
inductive Op where
  | update (key value : Arg) (kb vb : Bytes) (flags : Nat) (refuse : Option Errno)
  | del (key : Arg) (kb : Bytes) (refuse : Option Errno)
  | other (kb : Bytes) (v : Option Bytes)

/-- The Go values stand for those keys and values. -/
def Op.Ok (k : KMap) (ks vs : Nat) : Op → Prop
  | .update key value kb vb _ _ => KeyIs key ks kb ∧ Encodes value vs vb
  | .del key kb _ => KeyIs key ks kb
  | .other kb v => kb.length = k.keySize ∧ ∀ b, v = some b → b.length = k.valueSize

/-- What happens in the program. -/
def Op.run (m : GoMap) (k : KMap) (bo : ByteOrder) (cpus : Nat) (w : World) : Op → Done
  | .update key value _ _ flags refuse => mapUpdate m k bo cpus refuse w key value flags
  | .del key _ refuse => delete m k refuse w key
  | .other kb none => .ret { w with dict := w.dict.del kb } none
  | .other kb (some v) => .ret { w with dict := w.dict.set kb v } none

/-- A history; the errors of all steps. `none` if memory was violated. -/
def runAll (m : GoMap) (k : KMap) (bo : ByteOrder) (cpus : Nat) : World → List Op → Option (World × List (Option Err))
  | w, [] => some (w, [])
  | w, o :: os =>
    match o.run m k bo cpus w with
    | .oob => none
    | .ret w e =>
      match runAll m k bo cpus w os with
      | none => none
      | some (w, es) => some (w, e :: es)

/-- What should happen: a step of a dictionary `f`. -/
def Op.spec (f : Bytes → Option Bytes) : Op → (Bytes → Option Bytes) × Option Err
  | .update _ _ _ _ _ (some e) => (f, some (meaning e))
  | .update _ _ kb vb flags none =>
    if 8 ≤ flags ∨ flags % 4 = 3 then (f, some (.sys .EINVAL))
    else if flags % 4 = 1 ∧ (f kb).isSome = true then (f, some .keyExist)
    else if flags % 4 = 2 ∧ (f kb).isNone = true then (f, some .keyNotExist)
    else (fun x => if x = kb then some vb else f x, none)
  | .del _ _ (some e) => (f, some (meaning e))
  | .del _ kb none => if (f kb).isNone = true then (f, some .keyNotExist) else (fun x => if x = kb then none else f x, none)
  | .other kb v => (fun x => if x = kb then v else f x, none)

/-- A whole history of a dictionary. -/
def specAll : (Bytes → Option Bytes) → List Op → (Bytes → Option Bytes) × List (Option Err)
  | f, [] => (f, [])
  | f, o :: os => let r := specAll (o.spec f).1 os; (r.1, (o.spec f).2 :: r.2)

/-- **C92**, histories: after any sequence of updates and deletions of any keys, with any conditions,
failures and changes by others in between, every key has the value that a dictionary would have, and
every operation returned what it would return. -/
theorem history_dictionary (hf : Fits m k cpus typ ks vs) (hpc : typ ∉ perCPUTypes) (hr : k.refs = false) (bo : ByteOrder)
    (ops : List Op) (hok : ∀ o ∈ ops, o.Ok k ks vs) (w : World) (hd : DictOk k w.dict) :
    ∃ w', runAll m k bo cpus w ops = some (w', (specAll w.dict.get ops).2) ∧
      (∀ kb, w'.dict.get kb = (specAll w.dict.get ops).1 kb) ∧ w'.fds = w.fds ∧ DictOk k w'.dict := by
  induction ops generalizing w with
  | nil => exact ⟨w, rfl, fun _ => rfl, rfl, hd⟩
  | cons o os ih =>
    have hstep : ∃ w1, o.run m k bo cpus w = .ret w1 (o.spec w.dict.get).2 ∧ w1.dict.get = (o.spec w.dict.get).1 ∧
        w1.fds = w.fds ∧ DictOk k w1.dict := by
      have ho := hok o List.mem_cons_self
      cases o with
      | update key value kb vb flags refuse =>
        obtain ⟨h1, h2⟩ := ho
        have := update_dictionary hf hpc bo refuse w key value kb vb h1 (.enc _ _ _ h2) flags
        simp only [Op.run, this, updateOutcome]
        cases refuse with
        | some e => exact ⟨w, rfl, rfl, rfl, hd⟩
        | none =>
          simp only [Op.spec, stored, hr, Bool.false_eq_true, if_false]
          by_cases c1 : 8 ≤ flags ∨ flags % 4 = 3
          · rw [if_pos c1, if_pos c1]; exact ⟨w, rfl, rfl, rfl, hd⟩
          · rw [if_neg c1, if_neg c1]
            by_cases c2 : flags % 4 = 1 ∧ (w.dict.get kb).isSome = true
            · rw [if_pos c2, if_pos c2]; exact ⟨w, rfl, rfl, rfl, hd⟩
            · rw [if_neg c2, if_neg c2]
              by_cases c3 : flags % 4 = 2 ∧ (w.dict.get kb).isNone = true
              · rw [if_pos c3, if_pos c3]; exact ⟨w, rfl, rfl, rfl, hd⟩
              · rw [if_neg c3, if_neg c3]
                refine ⟨_, rfl, ?_, rfl, ?_⟩
                · funext x; exact get_set _ _ _ _
                · exact dictOk_set k _ kb vb hd (by rw [keyIs_len _ _ _ h1, hf.keySize])
                    (by rw [encodes_len _ _ _ h2, hf.valueSize, if_neg hpc])
      | del key kb refuse =>
        have := delete_dictionary hf refuse w key kb ho
        simp only [Op.run, this]
        cases refuse with
        | some e => exact ⟨w, rfl, rfl, rfl, hd⟩
        | none =>
          simp only [Op.spec]
          cases hg : w.dict.get kb with
          | none => exact ⟨w, by simp, by simp, rfl, hd⟩
          | some v =>
            simp only [Option.isNone_some, Bool.false_eq_true, if_false]
            exact ⟨_, rfl, by funext x; exact get_del _ _ _, rfl, dictOk_del k _ kb hd⟩
      | other kb v =>
        obtain ⟨h1, h2⟩ := ho
        cases v with
        | none => exact ⟨_, rfl, by funext x; exact get_del _ _ _, rfl, dictOk_del k _ kb hd⟩
        | some b => exact ⟨_, rfl, by funext x; exact get_set _ _ _ _, rfl, dictOk_set k _ kb b hd h1 (h2 b rfl)⟩
    obtain ⟨w1, h1, h2, h3, h4⟩ := hstep
    obtain ⟨w2, g1, g2, g3, g4⟩ := ih (fun o h => hok o (List.mem_cons_of_mem _ h)) w1 h4
    refine ⟨w2, ?_, ?_, g3.trans h3, g4⟩
    · simp only [runAll, h1, g1, specAll, h2]
    · intro kb
      rw [g2 kb]
      simp only [specAll, h2]

/-- **C92**, round trip: what was put under a key is what is looked up, in any destination that the
bytes suit; into a variable of the same type, it is the same Go value. -/
theorem put_lookup (hf : Fits m k cpus typ ks vs) (hpc : typ ∉ perCPUTypes) (hr : k.refs = false) (bo : ByteOrder) (gone : Option Errno)
    (newFd : Nat) (w : World) (hd : DictOk k w.dict) (key value : Arg) (kb vb : Bytes) (hk : KeyIs key ks kb) (hv : Encodes value vs vb) :
    ∃ w', put m k bo cpus none w key value = .ret w' none ∧
      (∀ dst dst', SaneDst dst → Plain dst → decoded dst vb = some dst' →
        lookupWithFlags m k bo cpus none gone newFd w' key dst = .ret w' dst' none) ∧
      (∀ t r mem old, value = .val t r mem → NoBlank t → old.length = sizeof t →
        ∃ got, lookupWithFlags m k bo cpus none gone newFd w' key (.val t old) = .ret w' (.val t got) none ∧
          binAppend t got = binAppend t mem) := by
  have hu := update_dictionary hf hpc bo none w key value kb vb hk (.enc _ _ _ hv) 0
  simp only [updateOutcome, stored, hr, Bool.false_eq_true, if_false] at hu
  rw [if_neg (by omega), if_neg (by omega), if_neg (by omega)] at hu
  have hd' : DictOk k (w.dict.set kb vb) :=
    dictOk_set k _ kb vb hd (by rw [keyIs_len _ _ _ hk, hf.keySize]) (by rw [encodes_len _ _ _ hv, hf.valueSize, if_neg hpc])
  have hl : ∀ dst dst', SaneDst dst → Plain dst → decoded dst vb = some dst' →
      lookupWithFlags m k bo cpus none gone newFd { w with dict := w.dict.set kb vb } key dst =
        .ret { w with dict := w.dict.set kb vb } dst' none := by
    intro dst dst' h1 h2 h3
    rw [lookup_dictionary hf hpc bo none gone newFd { w with dict := w.dict.set kb vb } hd' key kb hk dst h1 h2]
    simp only [lookupOutcome, get_set, if_true, h3]
  refine ⟨_, hu, hl, ?_⟩
  rintro t r mem old rfl hb hol
  cases hv with
  | val _ _ _ _ hml =>
    have hlen := binAppend_length t mem hml
    refine ⟨binDecode t old (binAppend t mem), hl (.val t old) _ ⟨hb, hol⟩ trivial (by simp [decoded, hlen]), ?_⟩
    exact binAppend_binDecode t old _ hb hol hlen

/-! ## The next key -/

/-- What `NextKey` has to give if the next key is `n`. -/
def nextOutcome (n : Option Bytes) (dst : Dst) : Ans (Dst × Option Err) :=
  match n with
  | none => .ok (dst, some .keyNotExist)
  | some n =>
    match decoded dst n with
    | none => .ok (dst, some .decode)
    | some dst' => .ok (dst', none)

theorem after_len (d : Dict) (hd : DictOk k d) (kb n : Bytes) (h : d.after kb = some n) : n.length = k.keySize := by
  unfold Dict.after at h
  have key : ∀ l : Dict, (∀ e ∈ l, e ∈ d) → ∀ n, l.head?.map (·.1) = some n → n.length = k.keySize := by
    intro l hl n hn
    cases l with
    | nil => cases hn
    | cons e l => cases hn; exact (hd e (hl e List.mem_cons_self)).1
  by_cases hc : (d.get kb).isSome = true
  · rw [if_pos hc] at h
    refine key _ ?_ n h
    intro e he
    exact (List.dropWhile_sublist _).subset (List.mem_of_mem_tail he)
  · rw [if_neg hc] at h
    exact key d (fun e he => he) n h

theorem kNextKey_eq {d : Dict} (hd : DictOk k d) (key : Ptr) (kb b : Bytes) (hn : key = none → k.old = true) (hc : copyKey k key = .ok kb)
    (hb : b.length = k.keySize) :
    kNextKey k none d key (newBuffer b) = match d.after kb with
      | none => .errno .ENOENT
      | some n => .ok n := by
  unfold kNextKey
  dsimp only
  rw [if_neg (by rintro ⟨h1, h2⟩; rw [hn h1] at h2; cases h2), hc]
  dsimp only
  cases ha : d.after kb with
  | none => rfl
  | some n => dsimp only; rw [write_newBuffer b n (by rw [hb, after_len d hd kb n ha])]

theorem bufUnmarshal_next (dst : Dst) (hs : SaneDst dst) (hp : Plain dst) (n : Bytes) (hn : n.length = m.keySize) :
    bufUnmarshal (direct dst m.keySize).isSome dst n = decoded dst n := unmarshal_dst dst n hs hp _ hn

/-- **C92**, `NextKey` and `NextKeyBytes` after a key: the key that follows in the map, decoded;
`ErrKeyNotExist`, or nil, if there is none. -/
theorem nextKey_dictionary (hf : Fits m k cpus typ ks vs) (d : Nat → Dict) (hd : DictOk k (d 0)) (r : Bytes) (key : Arg) (kb : Bytes)
    (hk : Encodes key ks kb) (h0 : ks ≠ 0) (dst : Dst) (hs : SaneDst dst) (hp : Plain dst) :
    mapNextKey m k none d r key dst = nextOutcome ((d 0).after kb) dst ∧
    nextKeyBytes m k none d r key = .ok ((d 0).after kb, none) := by
  obtain ⟨f1, f2, f3, f4⟩ := hf.fields
  have hkl := encodes_len _ _ _ hk
  rw [← f2] at hk
  have hnil : key ≠ .nil := by rintro rfl; cases hk
  have hptr : nextKeyPtr m key = .ok (newBuffer kb) := by
    have := key_enc (m := m) key kb hk
    cases key <;> first
      | exact absurd rfl hnil
      | exact this
  have hnn : newBuffer kb ≠ none := by simp [newBuffer, hkl, h0]
  have main : ∀ b : Bytes, b.length = m.keySize → nextKey m k none d r key (newBuffer b) = .ok (match (d 0).after kb with
      | none => .error .keyNotExist
      | some n => .ok n) := by
    intro b hb
    unfold nextKey
    rw [hptr]
    dsimp only
    rw [kNextKey_eq hd (newBuffer kb) kb b (fun h => absurd h hnn) (copyKey_newBuffer kb (by rw [hkl, hf.keySize])) (by rw [hb, f2, hf.keySize])]
    cases (d 0).after kb with
    | none => simp [wrapMapError]
    | some n => rfl
  constructor
  · obtain ⟨b, hb1, hb2⟩ := outBuffer_len dst m.keySize hs
    unfold mapNextKey nextOutcome
    rw [hb1, main b hb2]
    cases ha : (d 0).after kb with
    | none => rfl
    | some n =>
      dsimp only
      rw [bufUnmarshal_next dst hs hp n (by rw [after_len (d 0) hd kb n ha, hf.keySize, f2])]
      cases decoded dst n <;> rfl
  · unfold nextKeyBytes
    rw [main _ (zeros_length _)]
    cases ha : (d 0).after kb with
    | none => simp
    | some n => rfl

/-- Looking up a guess tells whether it is a key. -/
theorem guess_lookup (hf : Fits m k cpus typ ks vs) (d : Dict) (g : Bytes) (hg : g.length = ks) :
    (lookup m k none d (.bytes g) none = .ok (.error .keyNotExist)) ↔ d.get g = none := by
  obtain ⟨f1, f2, f3, f4⟩ := hf.fields
  have hk : KeyIs (.bytes g) m.keySize g := .inl (by rw [f2, ← hg]; exact .bytes g)
  obtain ⟨p, hp, hc⟩ := keyIs_marshal (k := k) (.bytes g) g hk (by rw [hf.keySize, f2])
  unfold lookup
  rw [hp]
  dsimp only
  unfold kLookup
  dsimp only
  rw [hc]
  dsimp only
  cases d.get g with
  | none => simp
  | some v =>
    simp only [reduceCtorEq, iff_false]
    unfold writeUser
    by_cases hv : v = []
    · simp [hv]
    · simp [hv, wrapMapError]

theorem guessLoop_static (hf : Fits m k cpus typ ks vs) (dd : Dict) (gs : List Bytes) (hgs : ∀ g ∈ gs, g.length = ks) (i : Nat) :
    ((∃ g ∈ gs, dd.get g = none) → ∃ g j, guessLoop m k (fun _ => dd) i gs = some (g, j) ∧ g.length = ks ∧ dd.get g = none) ∧
    ((∀ g ∈ gs, dd.get g ≠ none) → guessLoop m k (fun _ => dd) i gs = none) := by
  induction gs generalizing i with
  | nil => exact ⟨(by rintro ⟨g, h, -⟩; cases h), fun _ => rfl⟩
  | cons g gs ih =>
    have hl := guess_lookup hf dd g (hgs g List.mem_cons_self)
    have ih' := ih (fun g h => hgs g (List.mem_cons_of_mem _ h)) (i + 1)
    by_cases hg : dd.get g = none
    · have e := hl.mpr hg
      constructor
      · intro _
        exact ⟨g, i + 1, by simp only [guessLoop, e], hgs g List.mem_cons_self, hg⟩
      · intro h; exact absurd hg (h g List.mem_cons_self)
    · have e : lookup m k none dd (.bytes g) none ≠ .ok (.error .keyNotExist) := fun h => hg (hl.mp h)
      have e2 : guessLoop m k (fun _ => dd) i (g :: gs) = guessLoop m k (fun _ => dd) (i + 1) gs := by
        conv => lhs; unfold guessLoop
        split
        · next h => exact absurd h e
        · rfl
      rw [e2]
      constructor
      · rintro ⟨g', h1, h2⟩
        rcases List.mem_cons.mp h1 with rfl | h1
        · exact absurd h2 hg
        · exact ih'.1 ⟨g', h1, h2⟩
      · intro h; exact ih'.2 (fun g' h1 => h g' (List.mem_cons_of_mem _ h1))

/-- **C92**, the first key, on kernels since 4.4.132 and on older ones: `NextKey(nil)` gives the first key
of the map, or `ErrKeyNotExist` if it is empty. On older kernels one of the keys 0..., ff..., 55... and
a random one has to be missing from the map, which must not be changed meanwhile; otherwise see
`first_key_skipped_counterexample`. -/
theorem firstKey_dictionary_partial (hf : Fits m k cpus typ ks vs) (dd : Dict) (hd : DictOk k dd) (r : Bytes) (hr : r.length = ks) (h0 : ks ≠ 0)
    (dst : Dst) (hs : SaneDst dst) (hp : Plain dst)
    (hold : k.old = true → ∃ g ∈ [List.replicate ks 0#8, List.replicate ks 0xff#8, List.replicate ks 0x55#8, r], dd.get g = none) :
    mapNextKey m k none (fun _ => dd) r .nil dst = nextOutcome (dd.head?.map (·.1)) dst ∧
    nextKeyBytes m k none (fun _ => dd) r .nil = .ok (dd.head?.map (·.1), none) := by
  obtain ⟨f1, f2, f3, f4⟩ := hf.fields
  have hks : k.keySize ≠ 0 := by rw [hf.keySize]; exact h0
  have hfirst : ∀ n, dd.head?.map (·.1) = some n → n.length = m.keySize := by
    intro n hn
    cases dd with
    | nil => cases hn
    | cons e l => cases hn; rw [(hd e List.mem_cons_self).1, hf.keySize, f2]
  have main : ∀ b : Bytes, b.length = m.keySize → nextKey m k none (fun _ => dd) r .nil (newBuffer b) = .ok (match dd.head?.map (·.1) with
      | none => .error .keyNotExist
      | some n => .ok n) := by
    intro b hb
    unfold nextKey
    simp only [nextKeyPtr]
    cases ho : k.old with
    | false =>
      unfold kNextKey
      simp only [ho, and_self, if_true]
      cases hh : dd.head? with
      | none => simp [wrapMapError]
      | some e =>
        simp only [Option.map_some]
        rw [write_newBuffer b e.1 (by rw [hb, hfirst e.1 (by rw [hh]; rfl)])]
    | true =>
      have e1 : kNextKey k none dd none (newBuffer b) = .errno .EFAULT := by
        unfold kNextKey
        simp [ho, copyKey, hks, readUser]
      rw [e1]
      obtain ⟨g, j, g1, g2, g3⟩ := (guessLoop_static hf dd (guesses m r) (by
        intro g hg
        simp only [guesses, f2, List.mem_cons, List.not_mem_nil, or_false] at hg
        rcases hg with rfl | rfl | rfl | rfl <;> simp [zeros, hr]) 1).1 (by
          obtain ⟨g, h1, h2⟩ := hold ho
          refine ⟨g, ?_, h2⟩
          simpa [guesses, f2, zeros] using h1)
      simp only [isNil, and_self, if_true, g1]
      have hnn : newBuffer g ≠ none := by simp [newBuffer, g2, h0]
      rw [kNextKey_eq hd (newBuffer g) g b (fun h => absurd h hnn) (copyKey_newBuffer g (by rw [g2, hf.keySize])) (by rw [hb, f2, hf.keySize])]
      have ha : dd.after g = dd.head?.map (·.1) := by simp [Dict.after, g3]
      rw [ha]
      cases dd.head?.map (·.1) with
      | none => simp [wrapMapError]
      | some n => rfl
  constructor
  · obtain ⟨b, hb1, hb2⟩ := outBuffer_len dst m.keySize hs
    unfold mapNextKey nextOutcome
    rw [hb1, main b hb2]
    cases ha : dd.head?.map (·.1) with
    | none => rfl
    | some n =>
      dsimp only
      rw [bufUnmarshal_next dst hs hp n (hfirst n ha)]
      cases decoded dst n <;> rfl
  · unfold nextKeyBytes
    rw [main _ (zeros_length _)]
    cases ha : dd.head?.map (·.1) with
    | none => simp
    | some n => rfl

/-! ## Memory bounds -/

theorem unmarshalValue_safe (bo : ByteOrder) (gone : Option Errno) (newFd : Nat) (w : World) (dst : Dst) (dd : Bool) (v : Bytes) :
    unmarshalValue m bo gone newFd w dst dd v ≠ .oob ∧ unmarshalValue m bo gone newFd w dst dd v ≠ .panic := by
  have hret : ∀ w d e, (Out.ret w d e ≠ .oob ∧ Out.ret w d e ≠ .panic) := by intro w d e; simp
  cases dst <;> simp only [unmarshalValue] <;> (repeat' split) <;> exact hret _ _ _

theorem unmarshalPerCPU_safe (w : World) (dst : Dst) (t : Ty) (n : Nat) (v : Bytes) (hv : v.length = cpus * align8 vs) :
    unmarshalPerCPU cpus w dst t n vs v ≠ .oob ∧ unmarshalPerCPU cpus w dst t n vs v ≠ .panic := by
  have := (percpu_unmarshal_exact ⟨fun b => some b, fun b => Sysenc.unmarshal t (zeros (sizeof t)) b⟩ cpus n vs v hv).2
  unfold unmarshalPerCPU
  cases h : PerCPU.unmarshalPerCPUValue ⟨fun b => some b, fun b => Sysenc.unmarshal t (zeros (sizeof t)) b⟩ cpus n vs v with
  | ok vs => simp
  | err => simp
  | panic => exact absurd h this

theorem stored_not_oob (bo : ByteOrder) (fds : Fds) (v : Bytes) : stored k bo fds v ≠ .oob := by
  unfold stored
  repeat' split
  all_goals simp

theorem updateOutcome_safe (bo : ByteOrder) (refuse : Option Errno) (w : World) (kb vb : Bytes) (flags : Nat) :
    updateOutcome k bo refuse w kb vb flags ≠ .oob := by
  unfold updateOutcome
  repeat' split
  all_goals first
    | (next h => exact absurd h (stored_not_oob bo _ _))
    | simp

/-- **C92**, memory: with Go values (not unsafe pointers) as keys, values and destinations, the kernel
never reads or writes outside of the memory it is given, and no operation panics. -/
theorem operations_in_bounds (hf : Fits m k cpus typ ks vs) (bo : ByteOrder) (refuse gone : Option Errno) (newFd : Nat) (w : World)
    (hd : DictOk k w.dict) (key : Arg) (hk : Sane key) :
    (∀ dst, SaneDst dst →
      lookupWithFlags m k bo cpus refuse gone newFd w key dst ≠ .oob ∧ lookupWithFlags m k bo cpus refuse gone newFd w key dst ≠ .panic ∧
      lookupAndDeleteWithFlags m k bo cpus refuse gone newFd w key dst ≠ .oob ∧
      lookupAndDeleteWithFlags m k bo cpus refuse gone newFd w key dst ≠ .panic) ∧
    (∀ value flags, Sane value → mapUpdate m k bo cpus refuse w key value flags ≠ .oob) ∧
    delete m k refuse w key ≠ .oob ∧ lookupBytes m k refuse w.dict key ≠ .oob := by
  obtain ⟨f1, f2, f3, f4⟩ := hf.fields
  by_cases hkey : ∃ kb, KeyIs key ks kb
  · obtain ⟨kb, hkb⟩ := hkey
    have hkb' := hkb
    rw [← f2] at hkb'
    refine ⟨?_, ?_, ?_, ?_⟩
    · intro dst hs
      by_cases hpc : typ ∈ perCPUTypes
      · have hvl : ∀ v, w.dict.get kb = some v → v.length = cpus * align8 vs := by
          intro v hg
          rw [(hd _ (get_mem _ kb v hg)).2, hf.valueSize, if_pos hpc]; rfl
        have l1 := lookup_eq hf w.dict hd refuse key kb hkb' (zeros m.fullValueSize) (by rw [zeros_length, f4])
        have l2 := lookupAndDelete_eq hf w hd refuse key kb hkb' (zeros m.fullValueSize) (by rw [zeros_length, f4])
        unfold lookupWithFlags lookupAndDeleteWithFlags lookupPerCPU lookupAndDeletePerCPU
        rw [f1, perCPU_hasPerCPU hpc, if_pos rfl, if_pos rfl, l1, l2, f3]
        cases ensurePerCPUSlice cpus dst with
        | none => simp
        | some x =>
          obtain ⟨dst', t, n⟩ := x
          cases refuse with
          | some e => simp
          | none =>
            cases hg : w.dict.get kb with
            | none => simp
            | some v =>
              have a := unmarshalPerCPU_safe w dst' t n v (hvl v hg)
              have b := unmarshalPerCPU_safe { w with dict := w.dict.del kb } dst' t n v (hvl v hg)
              exact ⟨a.1, a.2, b.1, b.2⟩
      · obtain ⟨b, hb1, hb2⟩ := outBuffer_len dst m.fullValueSize hs
        have l1 := lookup_eq hf w.dict hd refuse key kb hkb' b (by rw [hb2, f4])
        have l2 := lookupAndDelete_eq hf w hd refuse key kb hkb' b (by rw [hb2, f4])
        unfold lookupWithFlags lookupAndDeleteWithFlags
        rw [f1, notPerCPU hpc, hb1, l1, l2]
        cases refuse with
        | some e => simp
        | none =>
          cases hg : w.dict.get kb with
          | none => simp
          | some v =>
            simp only [Bool.false_eq_true, if_false]
            have a := unmarshalValue_safe (m := m) bo gone newFd w dst (direct dst m.fullValueSize).isSome v
            have c := unmarshalValue_safe (m := m) bo gone newFd { w with dict := w.dict.del kb } dst (direct dst m.fullValueSize).isSome v
            exact ⟨a.1, a.2, c.1, c.2⟩
    · intro value flags hsv
      unfold mapUpdate
      by_cases hpc : typ ∈ perCPUTypes
      · rw [f1, perCPU_hasPerCPU hpc, if_pos rfl]
        cases hmp : marshalPerCPU cpus value m.valueSize with
        | none => simp
        | some p =>
          dsimp only
          have : ∃ vb : Bytes, p = newBuffer vb ∧ vb.length = k.valueSize := by
            cases value <;> simp only [marshalPerCPU, reduceCtorEq] at hmp
            next t n mem =>
              obtain ⟨vb, h1, h2⟩ := Option.map_eq_some_iff.mp hmp
              refine ⟨vb, h2.symm, ?_⟩
              rw [((percpu_marshal_exact _ cpus _ _ vb).mp h1).2.2.1, hf.valueSize, if_pos hpc, f3]; rfl
          obtain ⟨vb, rfl, hvb⟩ := this
          rw [update_eq hf bo refuse w key kb vb hkb' hvb flags]
          exact updateOutcome_safe bo refuse w kb vb flags
      · rw [f1, notPerCPU hpc]
        simp only [Bool.false_eq_true, if_false]
        have fdcase : ∀ fd : Option Nat, ∀ b, marshalFd bo fd m.valueSize = some b → update m k bo refuse w key (some b) flags ≠ .oob := by
          intro fd b hb
          cases fd with
          | none => cases hb
          | some fd =>
            simp only [marshalFd] at hb
            split at hb
            · cases hb
            · next h4 =>
              cases hb
              rw [← put32_newBuffer bo, update_eq hf bo refuse w key kb _ hkb' (by rw [put32_length, hf.valueSize, if_neg hpc, ← f3]; omega) flags]
              exact updateOutcome_safe bo refuse w kb _ flags
        have encase : ∀ a : Arg, Sane a → ∀ p, marshalMapSyscallInput a m.valueSize = some p → update m k bo refuse w key p flags ≠ .oob := by
          intro a ha p hp
          have : ∃ b, sysMarshal a m.valueSize = some b ∧ newBuffer b = p := by
            cases a <;> first
              | exact (ha : False).elim
              | exact Option.map_eq_some_iff.mp hp
          obtain ⟨b, h1, rfl⟩ := this
          have hl := encodes_len _ _ _ (sysMarshal_some a _ b ha h1)
          rw [update_eq hf bo refuse w key kb b hkb' (by rw [hl, hf.valueSize, if_neg hpc, f3]) flags]
          exact updateOutcome_safe bo refuse w kb b flags
        cases hmv : marshalValue m bo value with
        | error e => simp
        | ok p =>
          dsimp only
          cases value with
          | map fd =>
            simp only [marshalValue] at hmv
            split at hmv
            · cases hmv
            · split at hmv
              · cases hmv
              · next b hb => cases hmv; exact fdcase fd b hb
          | prog fd =>
            simp only [marshalValue] at hmv
            split at hmv
            · cases hmv
            · split at hmv
              · cases hmv
              · next b hb => cases hmv; exact fdcase fd b hb
          | ptr _ => exact (hsv : False).elim
          | nil => cases hmv
          | badMarshaler => cases hmv
          | bytes b =>
            cases hi : marshalMapSyscallInput (.bytes b) m.valueSize with
            | none => simp only [marshalValue, hi] at hmv; cases hmv
            | some q => simp only [marshalValue, hi] at hmv; cases hmv; exact encase _ hsv _ hi
          | val t r mem =>
            cases hi : marshalMapSyscallInput (.val t r mem) m.valueSize with
            | none => simp only [marshalValue, hi] at hmv; cases hmv
            | some q => simp only [marshalValue, hi] at hmv; cases hmv; exact encase _ hsv _ hi
          | slice t n mem =>
            cases hi : marshalMapSyscallInput (.slice t n mem) m.valueSize with
            | none => simp only [marshalValue, hi] at hmv; cases hmv
            | some q => simp only [marshalValue, hi] at hmv; cases hmv; exact encase _ hsv _ hi
    · rw [delete_dictionary hf refuse w key kb hkb]
      repeat' split
      all_goals simp
    · unfold lookupBytes
      rw [lookup_eq hf w.dict hd refuse key kb hkb' (zeros m.fullValueSize) (by rw [zeros_length, f4])]
      repeat' split
      all_goals first
        | (next h => cases h; done)
        | simp
  · obtain ⟨e, -, n1, n2, n3, n4, -⟩ := not_a_key hf key hk (fun kb h => hkey ⟨kb, h⟩)
    refine ⟨?_, ?_, ?_, ?_⟩
    · intro dst hs
      simp only [lookupWithFlags, lookupAndDeleteWithFlags, lookupPerCPU, lookupAndDeletePerCPU, n1, n2]
      split
      · cases ensurePerCPUSlice cpus dst <;> simp
      · simp
    · intro value flags hsv
      simp only [mapUpdate]
      repeat' split
      all_goals first
        | (rw [n3]; simp)
        | simp
    · rw [n4]; simp
    · simp only [lookupBytes, n1]
      split <;> simp

/-! ## What does not hold -/

/-- `LookupAndDelete` into a variable of the wrong size returns an error, but the element is lost. -/
theorem lookupAndDelete_loses_counterexample :
    lookupAndDeleteWithFlags (newMapFromParts 1 1 4 4) ⟨4, 4, false, false⟩ .little 1 none none 9 ⟨[([1, 0, 0, 0], [7, 0, 0, 0])], []⟩
        (.val (.num 4) false [1, 0, 0, 0]) (.val (.num 8) [0, 0, 0, 0, 0, 0, 0, 0]) =
      .ret ⟨[], []⟩ (.val (.num 8) [0, 0, 0, 0, 0, 0, 0, 0]) (some .decode) := by
  rfl

/-- A lookup of a missing key in a per-CPU map returns `ErrKeyNotExist`, but the slice that the
destination pointed to is replaced by zeros. -/
theorem perCPU_missing_clears_counterexample :
    lookupWithFlags (newMapFromParts 2 5 4 8) ⟨4, 16, false, false⟩ .little 2 none none 9 ⟨[], []⟩
        (.val (.num 4) false [1, 0, 0, 0]) (.pslice (.num 8) 1 [5, 5, 5, 5, 5, 5, 5, 5]) =
      .ret ⟨[], []⟩ (.pslice (.num 8) 2 (zeros 16)) (some .keyNotExist) := by
  rfl

/-- On kernels before 4.4.132, a key that is inserted between the guess and the call makes `NextKey(nil)`
skip the keys before it: the map holds 5 all the time, 0 is inserted after it was found missing, and
there "is no" first key. -/
theorem first_key_skipped_counterexample :
    mapNextKey (newMapFromParts 1 1 1 1) ⟨1, 1, false, true⟩ none
        (fun i => if i < 2 then [([5], [1])] else [([5], [1]), ([0], [1])]) [9] .nil (.str []) =
      .ok (.str [], some .keyNotExist) := by
  rfl

/-! ## Examples -/

/-- A hash map with 4-byte keys and values on a machine with 2 CPUs. -/
example : Fits (newMapFromParts 2 1 4 4) ⟨4, 4, false, false⟩ 2 1 4 4 := by
  constructor <;> decide
/-- A per-CPU array. -/
example : Fits (newMapFromParts 2 6 4 4) ⟨4, 16, false, false⟩ 2 6 4 4 := by
  constructor <;> decide
/-- A map of maps. -/
example : Fits (newMapFromParts 2 12 4 4) ⟨4, 4, true, false⟩ 2 12 4 4 := by
  constructor <;> decide
example : DictOk ⟨4, 4, false, false⟩ [([1, 0, 0, 0], [7, 0, 0, 0])] := by simp [DictOk]
example : KeyIs (.val (.num 4) false [1, 0, 0, 0]) 4 [1, 0, 0, 0] := .inl (.val (.num 4) false _ (by simp [NoBlank]) rfl)
/-- `Lookup(uint32(1), &x)` in it. -/
example : lookupWithFlags (newMapFromParts 2 1 4 4) ⟨4, 4, false, false⟩ .little 2 none none 9 ⟨[([1, 0, 0, 0], [7, 0, 0, 0])], []⟩
    (.val (.num 4) false [1, 0, 0, 0]) (.val (.num 4) [0, 0, 0, 0]) =
    .ret ⟨[([1, 0, 0, 0], [7, 0, 0, 0])], []⟩ (.val (.num 4) [7, 0, 0, 0]) none := by rfl
/-- The first key on an old kernel. -/
example : mapNextKey (newMapFromParts 1 1 1 1) ⟨1, 1, false, true⟩ none (fun _ => [([0], [1]), ([5], [1])]) [9] .nil (.str []) =
    .ok (.str [0], none) := by rfl

/-- **C92.** If the kernel refuses to look for what follows a key, `NextKey` reports that; it doesn't guess another key. -/
theorem nextKey_refused (m : GoMap) (k : KMap) (e : Errno) (d : Nat → Dict) (r : Bytes) (key : Arg) (hk : key ≠ .nil) (p : Ptr) (hp : nextKeyPtr m key = .ok p) (dst : Dst) :
    mapNextKey m k (some e) d r key dst = .ok (dst, some (wrapMapError e)) := by
  have hn : ¬ (isNil key = true ∧ e = .EFAULT) := by
    rintro ⟨h, -⟩
    cases key <;> first | exact hk rfl | cases h
  unfold mapNextKey nextKey
  rw [hp]
  dsimp only [kNextKey]
  rw [if_neg hn]

example : ∃ p, nextKeyPtr (m := ⟨1, 4, 4, 4⟩) (.bytes [1, 2, 3, 4]) = .ok p := ⟨_, rfl⟩

end Ebpf.MapOps
