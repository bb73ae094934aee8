import Verif.Model.MapAttr
import Verif.Spec.MapAttr
/-!
# C112: what the kernel is told about a new map, and how its refusal is reported
-/
namespace Ebpf.MapAttr
open Ebpf.MapSpec Ebpf.MapAttr.Spec

/-! ## Names -/

theorem only_filter (P : Byte → Prop) (p : Byte → Bool) (h : ∀ c, P c ↔ p c = true) : ∀ a b, Only P a b ↔ b = a.filter p
  | [], b => by
    constructor
    · intro h; cases h; rfl
    · rintro rfl; exact .nil
  | c :: a, b => by
    have ih := only_filter P p h a
    by_cases hc : p c = true
    · rw [List.filter_cons_of_pos hc]
      constructor
      · intro ho
        cases ho with
        | keep h1 h2 => rw [(ih _).1 h2]
        | drop h1 h2 => exact absurd ((h c).2 hc) h1
      · rintro rfl
        exact .keep ((h c).2 hc) ((ih _).2 rfl)
    · rw [List.filter_cons_of_neg hc]
      constructor
      · intro ho
        cases ho with
        | keep h1 h2 => exact absurd ((h c).1 h1) hc
        | drop h1 h2 => exact (ih _).1 h2
      · rintro rfl
        exact .drop (fun hp => hc ((h c).1 hp)) ((ih _).2 rfl)

/-- A character of the name that is kept. -/
def kept (dot : Feat) (c : Byte) : Bool :=
  ((65 ≤ c.toNat && c.toNat ≤ 90) || (97 ≤ c.toNat && c.toNat ≤ 122) || (48 ≤ c.toNat && c.toNat ≤ 57) || c.toNat == 46 || c.toNat == 95) && (dot != .notSupported || c != 46#8)

theorem kept_iff (dot : Feat) (c : Byte) : (Allowed c ∧ (c = 0x2e#8 → dot ≠ .notSupported)) ↔ kept dot c = true := by
  have e1 : c = 0x2e#8 ↔ c.toNat = 46 := by rw [← BitVec.toNat_inj]; exact Iff.rfl
  have e2 : c = 0x5f#8 ↔ c.toNat = 95 := by rw [← BitVec.toNat_inj]; exact Iff.rfl
  have e3 : (c != 46#8) = true ↔ ¬ c.toNat = 46 := by rw [bne_iff_ne]; exact not_congr e1
  have e4 : (dot != .notSupported) = true ↔ dot ≠ .notSupported := bne_iff_ne
  unfold kept Allowed
  rw [Bool.and_eq_true, Bool.or_eq_true (dot != .notSupported), e3, e4, e1, e2]
  simp only [Bool.or_eq_true, Bool.and_eq_true, decide_eq_true_eq, beq_iff_eq]
  by_cases hd : dot = .notSupported
  · simp only [hd, ne_eq, not_true_eq_false, false_or, imp_false]
    omega
  · simp only [hd, ne_eq, not_false_eq_true, true_or, and_true, imp_true_iff]
    omega

theorem zeros (b : Bytes) (n : Nat) (hl : b.length = n) (h : ∀ c ∈ b, c = 0#8) : b = List.replicate n 0#8 := by
  subst hl; exact List.eq_replicate_iff.2 ⟨rfl, h⟩

/-- **C112, names.** The name given to the kernel, exactly. -/
theorem name_exact (env : Env) (name b : Bytes) : fillName env name = b ↔ NameFor env.objName env.allowsDot name b := by
  unfold fillName NameFor
  by_cases ho : env.objName = .notSupported
  · rw [if_pos ho]
    constructor
    · rintro rfl
      exact ⟨by simp, Or.inl ⟨ho, fun c hc => List.eq_of_mem_replicate hc⟩⟩
    · rintro ⟨hl, h | h⟩
      · exact (zeros b 16 hl h.2).symm
      · exact absurd ho h.1
  · rw [if_neg ho]
    have hf : (if env.allowsDot = .notSupported then (sanitize name).filter (fun c => c != 46#8) else sanitize name) = name.filter (kept env.allowsDot) := by
      unfold sanitize
      split
      · next hd =>
        rw [List.filter_filter]
        apply List.filter_congr
        intro c _
        unfold kept
        rw [hd, Bool.and_comm]
        simp
      · next hd =>
        apply List.filter_congr
        intro c _
        unfold kept
        have : (env.allowsDot != .notSupported) = true := bne_iff_ne.2 hd
        rw [this]
        simp
    dsimp only
    rw [hf]
    have hlen : ∀ n : Bytes, (newObjName n).length = 16 := by
      intro n
      unfold newObjName
      rw [List.length_append, List.length_replicate]
      have : (n.take 15).length ≤ 15 := by rw [List.length_take]; omega
      omega
    constructor
    · rintro rfl
      exact ⟨hlen _, Or.inr ⟨ho, _, _, (only_filter _ _ (kept_iff env.allowsDot) _ _).2 rfl, rfl, fun c hc => List.eq_of_mem_replicate hc⟩⟩
    · rintro ⟨hl, h | ⟨_, n, z, hn, rfl, hz⟩⟩
      · exact absurd h.1 ho
      · rw [(only_filter _ _ (kept_iff env.allowsDot) _ _).1 hn] at hl ⊢
        unfold newObjName
        rw [zeros z (16 - ((name.filter (kept env.allowsDot)).take 15).length) _ hz]
        rw [List.length_append] at hl; omega

/-- **C112, names.** A name of up to 15 allowed characters without dots is passed as it is. -/
theorem name_kept (env : Env) (name : Bytes) (h : ∀ c ∈ name, Allowed c ∧ c ≠ 0x2e#8) (hl : name.length ≤ 15) (ho : env.objName ≠ .notSupported) :
    fillName env name = name ++ List.replicate (16 - name.length) 0#8 := by
  rw [name_exact]
  refine ⟨by rw [List.length_append, List.length_replicate]; omega, Or.inr ⟨ho, name, List.replicate (16 - name.length) 0#8, ?_, by rw [List.take_of_length_le hl],
    fun c hc => List.eq_of_mem_replicate hc⟩⟩
  rw [only_filter _ _ (kept_iff env.allowsDot)]
  symm
  rw [List.filter_eq_self]
  intro c hc
  rw [← kept_iff]
  exact ⟨(h c hc).1, fun e => absurd e (h c hc).2⟩

/-! ## Attributes -/

/-- A type of Linux. -/
def Linux (m : MSpec) : Prop := m.type &&& 0x70000000#32 = 0#32

theorem linux_iff (m : MSpec) : (Platform.decodeConstant m.type).1 = "linux" ↔ Linux m := by
  unfold Platform.decodeConstant Platform.platformForConstant Linux Platform.platformMask Platform.LinuxTag Platform.Linux
  dsimp only
  constructor
  · intro h
    split at h
    · assumption
    · split at h
      · exact absurd h (by decide)
      · exact absurd h (by decide)
  · intro h; rw [if_pos h]

theorem linux_type (m : MSpec) (h : Linux m) : (Platform.decodeConstant m.type).2 = m.type := by
  unfold Linux at h
  unfold Platform.decodeConstant Platform.platformMask
  dsimp only
  apply BitVec.eq_of_getLsbD_eq
  intro i hi
  have := congrArg (fun x => x.getLsbD i) h
  simp only [BitVec.getLsbD_and, BitVec.getLsbD_not, hi, decide_true, Bool.true_and] at this ⊢
  simp only [BitVec.getLsbD_zero] at this
  cases h1 : m.type.getLsbD i <;> cases h2 : (0x70000000#32).getLsbD i <;> simp_all

theorem withBTF_exact (env : Env) (s : Spec) (m : MSpec) (inner : Option (BitVec 32)) (a : Attr) (m' : MSpec) (hm : Linux m) :
    withBTF env s (plainAttr env s m inner) m = .ok (a, m') ↔ AttrFor env s m inner a ∧ m' = { m with valueSize := a.valueSize } := by
  have hn : fillName env s.name = (plainAttr env s m inner).name := rfl
  have nm := (name_exact env s.name _).1 hn
  have ht := linux_type m hm
  constructor
  · intro h
    unfold withBTF at h
    split at h
    · next hb =>
      simp only [Except.ok.injEq, Prod.mk.injEq] at h
      obtain ⟨rfl, rfl⟩ := h
      exact ⟨⟨nm, ht, rfl, rfl, rfl, rfl, rfl, .plain (Or.inl (by simpa using hb))⟩, rfl⟩
    · next hb =>
      have hb : s.hasBTF = true := by simpa using hb
      split at h
      · cases h
      · next hk =>
        split at h
        · simp [structOps] at h
        · next ht26 =>
          simp only [Except.ok.injEq, Prod.mk.injEq] at h
          obtain ⟨rfl, rfl⟩ := h
          exact ⟨⟨nm, ht, rfl, rfl, rfl, rfl, rfl, .plain (Or.inr ⟨ht26, Or.inl hk⟩)⟩, rfl⟩
      · next hd key value hk =>
        cases hd with
        | none =>
          dsimp only at h
          split at h
          · simp [structOps] at h
          · next ht26 =>
            simp only [Except.ok.injEq, Prod.mk.injEq] at h
            obtain ⟨rfl, rfl⟩ := h
            exact ⟨⟨nm, ht, rfl, rfl, rfl, rfl, rfl, .plain (Or.inr ⟨ht26, Or.inr ⟨_, _, hk⟩⟩)⟩, rfl⟩
        | some fd =>
          dsimp only at h
          split at h
          · next ht26 =>
            unfold structOps at h
            simp only [Option.isSome_some, not_true_eq_false, if_false] at h
            split at h
            · cases h
            · next hv =>
              have hv : env.valueIsStruct = true := by simpa using hv
              split at h
              · cases h
              · next size tid mo htg =>
                cases mo with
                | none =>
                  simp only [Except.ok.injEq, Prod.mk.injEq] at h
                  obtain ⟨rfl, rfl⟩ := h
                  exact ⟨⟨nm, ht, rfl, rfl, rfl, rfl, rfl, .vmlinux hb ht26 hk hv htg⟩, rfl⟩
                | some o =>
                  simp only [Except.ok.injEq, Prod.mk.injEq] at h
                  obtain ⟨rfl, rfl⟩ := h
                  exact ⟨⟨nm, ht, rfl, rfl, rfl, rfl, rfl, .inModule hb ht26 hk hv htg⟩, rfl⟩
          · next ht26 =>
            simp only [Except.ok.injEq, Prod.mk.injEq] at h
            obtain ⟨rfl, rfl⟩ := h
            exact ⟨⟨nm, ht, rfl, rfl, rfl, rfl, rfl, .btf hb ht26 hk⟩, rfl⟩
  · rintro ⟨⟨h1, h2, h3, h4, h5, h6, h7, h8⟩, rfl⟩
    have hname : a.name = fillName env s.name := ((name_exact env s.name a.name).2 h1).symm
    obtain ⟨nm', ty, ks, vs, me, fl, nn, mx, ifd, bf, bk, bv, vv, vo⟩ := a
    dsimp only at *
    subst hname h2 h3 h4 h5 h6 h7
    unfold withBTF plainAttr
    rw [ht]
    cases h8 with
    | plain hp =>
      rcases hp with hb | ⟨h26, hk | ⟨k, v, hk⟩⟩
      · simp [hb]
      · cases hb : s.hasBTF
        · simp
        · simp [hk]; exact fun e => absurd e h26
      · cases hb : s.hasBTF
        · simp
        · simp [hk]; exact fun e => absurd e h26
    | btf hb h26 hk => simp [hb, hk]; exact fun e => absurd e h26
    | vmlinux hb h26 hk hv htg => simp [hb, hk, h26, structOps, hv, htg]
    | inModule hb h26 hk hv htg => simp [hb, hk, h26, structOps, hv, htg]

/-! ## Calls -/

/-- **C112, success.** A descriptor is returned iff the spec is acceptable and the kernel accepts its attributes, or accepts them without BTF after it has
refused them with ENOTSUPP or EINVAL; these are all calls that are made. -/
theorem create_exact (env : Env) (s : Spec) (inner : Option (BitVec 32)) (l : List Attr) (fd : Nat) : createMap env s inner = (l, .ok fd) ↔
    s.extraOk = true ∧ ∃ m a, (fixup env.cpus s.m).1 = some m ∧ Linux m ∧ AttrFor env s m inner a ∧
      ((l = [a] ∧ env.create a = .ok fd) ∨
       ∃ b e, NoBTF a b ∧ l = [a, b] ∧ env.create a = .error e ∧ Refused e ∧ a.btfFd ≠ 0 ∧ env.create b = .ok fd) := by
  unfold createMap
  cases hx : s.extraOk
  · simp
  cases hf : (fixup env.cpus s.m).1 with
  | none => simp
  | some m =>
    by_cases hl : (Platform.decodeConstant m.type).1 = "linux"
    · have hm := (linux_iff m).1 hl
      simp only [not_true_eq_false, if_false, hl, ne_eq, Option.some.injEq, true_and]
      cases hw : withBTF env s (plainAttr env s m inner) m with
      | error e =>
        constructor
        · intro h; cases h
        · rintro ⟨m', a, rfl, _, ha, _⟩
          have := (withBTF_exact env s m inner a _ hm).2 ⟨ha, rfl⟩
          rw [hw] at this; cases this
      | ok am =>
        obtain ⟨a, m'⟩ := am
        have ha := (withBTF_exact env s m inner a m' hm).1 hw
        have key : calls env a m' = (l, .ok fd) ↔ ((l = [a] ∧ env.create a = .ok fd) ∨
            ∃ b e, NoBTF a b ∧ l = [a, b] ∧ env.create a = .error e ∧ Refused e ∧ a.btfFd ≠ 0 ∧ env.create b = .ok fd) := by
          unfold calls
          cases hc : env.create a with
          | ok f =>
            constructor
            · intro h; cases h; exact Or.inl ⟨rfl, rfl⟩
            · rintro (⟨rfl, h⟩ | ⟨_, _, _, _, h, _⟩)
              · cases h; rfl
              · cases h
          | error e =>
            dsimp only
            split
            · next hr =>
              cases hb : env.create (withoutBTF a) with
              | ok f =>
                constructor
                · intro h; cases h; exact Or.inr ⟨_, e, rfl, rfl, rfl, hr.1, hr.2, hb⟩
                · rintro (⟨_, h⟩ | ⟨b, e', h1, rfl, h3, h4, h5, h6⟩)
                  · cases h
                  · have : b = withoutBTF a := h1
                    subst this
                    rw [hb] at h6; cases h6; rfl
              | error e2 =>
                constructor
                · intro h; cases h
                · rintro (⟨_, h⟩ | ⟨b, e', h1, rfl, h3, h4, h5, h6⟩)
                  · cases h
                  · have : b = withoutBTF a := h1
                    subst this
                    rw [hb] at h6; cases h6
            · next hr =>
              constructor
              · intro h; cases h
              · rintro (⟨_, h⟩ | ⟨b, e', h1, rfl, h3, h4, h5, h6⟩)
                · cases h
                · cases h3; exact absurd ⟨h4, h5⟩ hr
        dsimp only
        rw [key]
        constructor
        · intro h; exact ⟨m, a, rfl, hm, ha.1, h⟩
        · rintro ⟨m1, a1, rfl, _, ha1, h⟩
          have := (withBTF_exact env s m inner a1 _ hm).2 ⟨ha1, rfl⟩
          rw [hw] at this
          simp only [Except.ok.injEq, Prod.mk.injEq] at this
          rw [this.1]; exact h
    · simp only [not_true_eq_false, if_false, hl, ne_eq, not_false_eq_true, if_true]
      constructor
      · intro h; cases h
      · rintro ⟨_, m', a, h, hm, _⟩
        cases h
        exact absurd ((linux_iff m).2 hm) hl

theorem structOps_error (env : Env) (h : Bool) (a : Attr) (m : MSpec) (e : KErr) (r : Report) : structOps env h a m ≠ .error (.create e r) := by
  unfold structOps
  cases h
  · simp
  · cases hv : env.valueIsStruct
    · simp
    · cases ht : env.target <;> simp

theorem withBTF_error (env : Env) (s : Spec) (a : Attr) (m : MSpec) (e : KErr) (r : Report) : withBTF env s a m ≠ .error (.create e r) := by
  unfold withBTF
  cases hb : s.hasBTF
  · simp
  · cases hk : env.kv with
    | failed => simp
    | notSupported =>
      by_cases ht : m.type = 26
      · simp [ht, structOps_error]
      · simp only [if_neg ht]; simp
    | ok h k v =>
      by_cases ht : m.type = 26
      · simp only [if_pos ht]; exact structOps_error _ _ _ _ _ _
      · simp only [if_neg ht]; simp

/-- **C112, refusal.** An error of the system call is that of the last call; it is reported for the attributes of that call. -/
theorem create_refused (env : Env) (s : Spec) (inner : Option (BitVec 32)) (l : List Attr) (e : KErr) (r : Report)
    (h : createMap env s inner = (l, .error (.create e r))) : ∃ m a b, (fixup env.cpus s.m).1 = some m ∧ Linux m ∧ AttrFor env s m inner a ∧
      env.create b = .error e ∧ r = handleError env b { m with valueSize := a.valueSize } e ∧
      ((l = [a] ∧ b = a ∧ ¬ (Refused e ∧ a.btfFd ≠ 0)) ∨ (l = [a, b] ∧ NoBTF a b ∧ a.btfFd ≠ 0 ∧ ∃ e', env.create a = .error e' ∧ Refused e')) := by
  unfold createMap at h
  split at h
  · cases h
  split at h
  · cases h
  next m hf =>
  split at h
  · cases h
  next hl =>
  have hm : Linux m := (linux_iff m).1 (by simpa using hl)
  split at h
  · next e' hw =>
    exfalso
    simp only [Prod.mk.injEq, Except.error.injEq] at h
    rw [h.2] at hw
    exact withBTF_error env s _ m e r hw
  · next a m' hw =>
    obtain ⟨ha, hm'⟩ := (withBTF_exact env s m inner a m' hm).1 hw
    subst hm'
    unfold calls at h
    split at h
    · cases h
    · next e1 hc =>
      split at h
      · next hr =>
        split at h
        · cases h
        · next e2 hb =>
          simp only [Prod.mk.injEq, Except.error.injEq, Err.create.injEq] at h
          obtain ⟨rfl, rfl, rfl⟩ := h
          exact ⟨m, a, _, hf, hm, ha, hb, rfl, Or.inr ⟨rfl, rfl, hr.2, e1, hc, hr.1⟩⟩
      · next hr =>
        simp only [Prod.mk.injEq, Except.error.injEq, Err.create.injEq] at h
        obtain ⟨rfl, rfl, rfl⟩ := h
        exact ⟨m, a, a, hf, hm, ha, hc, rfl, Or.inl ⟨rfl, rfl, hr⟩⟩

/-- **C112, other errors.** The kernel is asked to make a map iff the spec is acceptable: each other error, exactly. -/
theorem create_errors (env : Env) (s : Spec) (inner : Option (BitVec 32)) (l : List Attr) :
    (createMap env s inner = (l, .error .extra) ↔ l = [] ∧ s.extraOk = false) ∧
    (createMap env s inner = (l, .error .fields) ↔ l = [] ∧ s.extraOk = true ∧ (fixup env.cpus s.m).1 = none) ∧
    (createMap env s inner = (l, .error .platform) ↔ l = [] ∧ s.extraOk = true ∧ ∃ m, (fixup env.cpus s.m).1 = some m ∧ ¬ Linux m) ∧
    (createMap env s inner = (l, .error .btf) ↔ l = [] ∧ s.extraOk = true ∧ ∃ m, (fixup env.cpus s.m).1 = some m ∧ Linux m ∧ s.hasBTF = true ∧ env.kv = .failed) ∧
    (createMap env s inner = (l, .error .structNoBTF) ↔ l = [] ∧ s.extraOk = true ∧ ∃ m, (fixup env.cpus s.m).1 = some m ∧ Linux m ∧ s.hasBTF = true ∧ m.type = 26 ∧
      (env.kv = .notSupported ∨ ∃ k v, env.kv = .ok none k v)) ∧
    (createMap env s inner = (l, .error .structValue) ↔ l = [] ∧ s.extraOk = true ∧ ∃ m, (fixup env.cpus s.m).1 = some m ∧ Linux m ∧ s.hasBTF = true ∧ m.type = 26 ∧
      (∃ fd k v, env.kv = .ok (some fd) k v) ∧ env.valueIsStruct = false) ∧
    (createMap env s inner = (l, .error .structTarget) ↔ l = [] ∧ s.extraOk = true ∧ ∃ m, (fixup env.cpus s.m).1 = some m ∧ Linux m ∧ s.hasBTF = true ∧ m.type = 26 ∧
      (∃ fd k v, env.kv = .ok (some fd) k v) ∧ env.valueIsStruct = true ∧ env.target = none) := by
  unfold createMap
  cases hx : s.extraOk
  · simp
  cases hf : (fixup env.cpus s.m).1 with
  | none => simp
  | some m =>
    by_cases hl : (Platform.decodeConstant m.type).1 = "linux"
    · have hm := (linux_iff m).1 hl
      have ncalls : ∀ a m' e, (∀ k r, e ≠ .create k r) → calls env a m' ≠ (l, .error e) := by
        intro a m' e he hc
        unfold calls at hc
        split at hc
        · cases hc
        · split at hc
          · split at hc
            · cases hc
            · simp only [Prod.mk.injEq, Except.error.injEq] at hc; exact he _ _ hc.2.symm
          · simp only [Prod.mk.injEq, Except.error.injEq] at hc; exact he _ _ hc.2.symm
      simp only [not_true_eq_false, if_false, hl, ne_eq, Option.some.injEq, true_and, exists_eq_left', hm]
      unfold withBTF
      cases hb : s.hasBTF
      · simp [ncalls]
      · by_cases ht : m.type = 26#32
        · cases hk : env.kv with
          | failed => simp [ht]
          | notSupported => simp [ht, structOps]
          | ok hd k v =>
            cases hd with
            | none => simp [ht, structOps]
            | some fd =>
              cases hv : env.valueIsStruct
              · simp [ht, structOps, hv]
              · cases htg : env.target with
                | none => simp [ht, structOps, hv, htg]
                | some t =>
                  obtain ⟨sz, tid, mo⟩ := t
                  simp [ht, structOps, hv, htg, ncalls]
        · cases hk : env.kv with
          | failed => simp [ht]
          | notSupported => simp [ht, ncalls]
          | ok hd k v => cases hd <;> simp [ht, ncalls]
    · have hnl : ¬ Linux m := fun h => hl ((linux_iff m).2 h)
      simp [hl, hnl]
/-! ## Reports -/

theorem storage_iff (t : BitVec 32) : StorageType t ↔ mustHaveZeroMaxEntries t = true := by
  unfold StorageType mustHaveZeroMaxEntries
  simp only [Bool.or_eq_true, beq_iff_eq]
  grind

theorem dynamic_iff (t : BitVec 32) : DynamicType t ↔ mustHaveNoPrealloc t = true := by
  unfold DynamicType mustHaveNoPrealloc
  simp only [Bool.or_eq_true, beq_iff_eq]
  grind
theorem and_bit (x c : BitVec 32) (k : Nat) (hc : ∀ i, i < 32 → c.getLsbD i = decide (i = k)) (hk : k < 32) : x &&& c = 0 ↔ x.getLsbD k = false := by
  constructor
  · intro h
    have := congrArg (fun y => y.getLsbD k) h
    simpa [hc k hk] using this
  · intro h
    apply BitVec.eq_of_getLsbD_eq
    intro i hi
    rw [BitVec.getLsbD_and, hc i hi]
    by_cases e : i = k
    · subst e; simp [h]
    · simp [e]

theorem bit0 (x : BitVec 32) : x &&& 1 = 0 ↔ x.getLsbD 0 = false := and_bit x 1 0 (by decide) (by decide)
theorem bit7 (x : BitVec 32) : x &&& 128 = 0 ↔ x.getLsbD 7 = false := and_bit x 128 7 (by decide) (by decide)
theorem bit8 (x : BitVec 32) : x &&& 256 = 0 ↔ x.getLsbD 8 = false := and_bit x 256 8 (by decide) (by decide)
theorem bit10 (x : BitVec 32) : x &&& 1024 = 0 ↔ x.getLsbD 10 = false := and_bit x 1024 10 (by decide) (by decide)
theorem bit12 (x : BitVec 32) : x &&& 4096 = 0 ↔ x.getLsbD 12 = false := and_bit x 4096 12 (by decide) (by decide)

theorem nested_iff (m : MSpec) (h : Linux m) : canStoreMap m.type = true ↔ Uses m .nestedMaps := by
  unfold canStoreMap Uses tArrayOfMaps tHashOfMaps tWindowsArrayOfMaps tWindowsHashOfMaps
  unfold Linux at h
  simp only [Bool.or_eq_true, beq_iff_eq]
  constructor
  · rintro (((h1 | h1) | h1) | h1)
    · exact Or.inl h1
    · exact Or.inr h1
    · rw [h1] at h; exact absurd h (by decide)
    · rw [h1] at h; exact absurd h (by decide)
  · rintro (h1 | h1)
    · exact Or.inl (Or.inl (Or.inl h1))
    · exact Or.inl (Or.inl (Or.inr h1))

/-- The first of the features that is used and missing. -/
def firstMissing (env : Env) (m : MSpec) [DecidablePred (fun f => Uses m f ∧ probe env f ≠ .ok)] : Option Feature :=
  order.find? fun f => decide (Uses m f ∧ probe env f ≠ .ok)

theorem missing_find (env : Env) (m : MSpec) (h : Linux m) [DecidablePred (fun f => Uses m f ∧ probe env f ≠ .ok)] : missing env m = firstMissing env m := by
  unfold missing firstMissing order
  have n1 := nested_iff m h
  have e2 : (m.flags &&& 128 ≠ 0 ∨ m.flags &&& 256 ≠ 0) ↔ Uses m .mutability := by
    unfold Uses; rw [Ne, bit7, Ne, bit8]; simp
  have e3 : m.flags &&& 1024 ≠ 0 ↔ Uses m .mmapable := by unfold Uses; rw [Ne, bit10]; simp
  have e4 : m.flags &&& 4096 ≠ 0 ↔ Uses m .innerMaps := by unfold Uses; rw [Ne, bit12]; simp
  have e5 : m.flags &&& 1 ≠ 0 ↔ Uses m .noPrealloc := by unfold Uses; rw [Ne, bit0]; simp
  simp only [List.find?_cons, List.find?_nil]
  have p1 : probe env .nestedMaps = env.nestedMaps := rfl
  have p2 : probe env .mutability = env.mutability := rfl
  have p3 : probe env .mmapable = env.mmapable := rfl
  have p4 : probe env .innerMaps = env.innerMaps := rfl
  have p5 : probe env .noPrealloc = env.noPrealloc := rfl
  by_cases h1 : Uses m .nestedMaps ∧ probe env .nestedMaps ≠ .ok
  · rw [decide_eq_true h1, if_pos (show canStoreMap m.type = true ∧ env.nestedMaps ≠ .ok from ⟨n1.2 h1.1, h1.2⟩)]
  rw [decide_eq_false h1, if_neg (show ¬ (canStoreMap m.type = true ∧ env.nestedMaps ≠ .ok) from fun hh => h1 ⟨n1.1 hh.1, hh.2⟩)]
  by_cases h2 : Uses m .mutability ∧ probe env .mutability ≠ .ok
  · rw [decide_eq_true h2, if_pos (show (m.flags &&& 128 ≠ 0 ∨ m.flags &&& 256 ≠ 0) ∧ env.mutability ≠ .ok from ⟨e2.2 h2.1, h2.2⟩)]
  rw [decide_eq_false h2, if_neg (show ¬ ((m.flags &&& 128 ≠ 0 ∨ m.flags &&& 256 ≠ 0) ∧ env.mutability ≠ .ok) from fun hh => h2 ⟨e2.1 hh.1, hh.2⟩)]
  by_cases h3 : Uses m .mmapable ∧ probe env .mmapable ≠ .ok
  · rw [decide_eq_true h3, if_pos (show m.flags &&& 1024 ≠ 0 ∧ env.mmapable ≠ .ok from ⟨e3.2 h3.1, h3.2⟩)]
  rw [decide_eq_false h3, if_neg (show ¬ (m.flags &&& 1024 ≠ 0 ∧ env.mmapable ≠ .ok) from fun hh => h3 ⟨e3.1 hh.1, hh.2⟩)]
  by_cases h4 : Uses m .innerMaps ∧ probe env .innerMaps ≠ .ok
  · rw [decide_eq_true h4, if_pos (show m.flags &&& 4096 ≠ 0 ∧ env.innerMaps ≠ .ok from ⟨e4.2 h4.1, h4.2⟩)]
  rw [decide_eq_false h4, if_neg (show ¬ (m.flags &&& 4096 ≠ 0 ∧ env.innerMaps ≠ .ok) from fun hh => h4 ⟨e4.1 hh.1, hh.2⟩)]
  by_cases h5 : Uses m .noPrealloc ∧ probe env .noPrealloc ≠ .ok
  · rw [decide_eq_true h5, if_pos (show m.flags &&& 1 ≠ 0 ∧ env.noPrealloc ≠ .ok from ⟨e5.2 h5.1, h5.2⟩)]
  rw [decide_eq_false h5, if_neg (show ¬ (m.flags &&& 1 ≠ 0 ∧ env.noPrealloc ≠ .ok) from fun hh => h5 ⟨e5.1 hh.1, hh.2⟩)]

theorem missing_some (env : Env) (m : MSpec) (h : Linux m) (f : Feature) : missing env m = some f ↔ FirstMissing env m f := by
  classical
  rw [missing_find env m h]
  unfold firstMissing FirstMissing
  rw [List.find?_eq_some_iff_append]
  simp only [decide_eq_true_eq, Bool.not_eq_true', decide_eq_false_iff_not]
  constructor
  · rintro ⟨⟨h1, h2⟩, a, b, h3, h4⟩
    exact ⟨a, b, h3, h1, h2, fun g hg hu => Classical.not_not.1 fun hp => h4 g hg ⟨hu, hp⟩⟩
  · rintro ⟨a, b, h3, h1, h2, h4⟩
    exact ⟨⟨h1, h2⟩, a, b, h3, fun g hg ⟨hu, hp⟩ => hp (h4 g hg hu)⟩

theorem missing_none (env : Env) (m : MSpec) (h : Linux m) : missing env m = none ↔ NothingMissing env m := by
  classical
  rw [missing_find env m h]
  unfold firstMissing NothingMissing
  rw [List.find?_eq_none]
  simp only [decide_eq_true_eq]
  have ho : ∀ f : Feature, f ∈ order := by intro f; cases f <;> decide
  constructor
  · intro h1 f hu
    exact Classical.not_not.1 fun hp => h1 f (ho f) ⟨hu, hp⟩
  · rintro h1 f _ ⟨hu, hp⟩
    exact hp (h1 f hu)

theorem isPow_iff (n : BitVec 32) : isPow n = true ↔ ∃ k, n.toNat = 2 ^ k := by
  have key := Nat.ne_zero_and_sub_one_eq_zero_iff_isPowerOfTwo (n := n.toNat)
  simp only [Nat.isPowerOfTwo] at key
  rw [← key]
  unfold isPow
  rw [Bool.and_eq_true, bne_iff_ne, beq_iff_eq]
  have e0 : n ≠ 0 ↔ n.toNat ≠ 0 := by rw [Ne, ← BitVec.toNat_inj]; exact Iff.rfl
  rw [e0]
  constructor
  · rintro ⟨h0, h⟩
    refine ⟨h0, ?_⟩
    have := congrArg BitVec.toNat h
    rw [BitVec.toNat_and, BitVec.toNat_sub_of_le (by rw [BitVec.le_def]; show (1#32).toNat ≤ _; simp; omega)] at this
    exact this
  · rintro ⟨h0, h⟩
    refine ⟨h0, ?_⟩
    apply BitVec.eq_of_toNat_eq
    rw [BitVec.toNat_and, BitVec.toNat_sub_of_le (by rw [BitVec.le_def]; show (1#32).toNat ≤ _; simp; omega)]
    exact h

theorem ring_iff (n page : BitVec 32) : (n.umod page ≠ 0 ∨ ¬ isPow n = true) ↔ ¬ RingSize n page := by
  unfold RingSize
  rw [isPow_iff]
  have : n.umod page = 0 ↔ page.toNat ∣ n.toNat := by
    rw [← BitVec.toNat_inj]
    show (n % page).toNat = 0 ↔ _
    rw [BitVec.toNat_umod, Nat.dvd_iff_mod_eq_zero]
  rw [Ne, this]
  grind

theorem hint_none (m : MSpec) : invalidHint m = none ↔ ¬ Doubtful m := by
  unfold invalidHint Doubtful
  rw [storage_iff, dynamic_iff]
  have e5 := bit0 m.flags
  grind

theorem late_exact (env : Env) (attr : Attr) (m : MSpec) (e : KErr) (hd : ¬ Direct m e) : handleError env attr m e = lateReport env attr m e := by
  unfold Direct at hd
  unfold handleError
  rw [if_neg (fun h => hd (Or.inl h)), if_neg (show ¬ e = .errno eperm from fun h => hd (Or.inr (Or.inl h)))]
  have : (if e = .errno einval then invalidHint m else none) = none := by
    split
    · next h =>
      rw [hint_none]
      exact fun hm => hd (Or.inr (Or.inr ⟨h, hm⟩))
    · rfl
  rw [this]

theorem direct_report (env : Env) (attr : Attr) (m : MSpec) (e : KErr) (hd : Direct m e) (f : Feature) :
    handleError env attr m e ≠ .feature f ∧ handleError env attr m e ≠ .cause .ringSize := by
  unfold handleError
  rcases hd with rfl | rfl | ⟨rfl, hm⟩
  · simp
  · simp [eperm]
  · have h1 : ¬ (KErr.errno 22 = .token) := by simp
    have h2 : ¬ (KErr.errno 22 = .errno eperm) := by decide
    have h3 : KErr.errno 22 = .errno einval := rfl
    rw [if_neg h1, if_neg h2, if_pos h3]
    cases hh : invalidHint m with
    | none => exact absurd hm ((hint_none m).1 hh)
    | some r =>
      dsimp only
      unfold invalidHint at hh
      split at hh
      · cases hh; simp
      · split at hh
        · cases hh; simp
        · split at hh
          · cases hh; simp
          · split at hh
            · cases hh; simp
            · cases hh

/-- **C112, missing features.** A feature is reported iff it is the first that the spec uses and whose probe fails, and the error isn't explained otherwise. -/
theorem report_feature (env : Env) (attr : Attr) (m : MSpec) (e : KErr) (hm : Linux m) (f : Feature) :
    handleError env attr m e = .feature f ↔ ¬ Direct m e ∧ FirstMissing env m f := by
  by_cases hd : Direct m e
  · constructor
    · intro h; exact absurd h (direct_report env attr m e hd f).1
    · intro h; exact absurd hd h.1
  · rw [late_exact env attr m e hd, ← missing_some env m hm]
    unfold lateReport
    cases missing env m with
    | none => simp only [reduceCtorEq, and_false, iff_false]; split <;> simp
    | some g => simp [hd]

/-- **C112, size of ring buffers.** -/
theorem report_ring (env : Env) (attr : Attr) (m : MSpec) (e : KErr) (hm : Linux m) :
    handleError env attr m e = .cause .ringSize ↔ e = .errno 22 ∧ ¬ Doubtful m ∧ NothingMissing env m ∧ (attr.type = 27 ∨ attr.type = 31) ∧
      ¬ RingSize attr.maxEntries env.pageSize := by
  by_cases hd : Direct m e
  · constructor
    · intro h; exact absurd h (direct_report env attr m e hd .nestedMaps).2
    · rintro ⟨rfl, h, _⟩
      rcases hd with hd | hd | hd
      · cases hd
      · injection hd with hd; exact absurd hd (by decide)
      · exact absurd hd.2 h
  · have hnd : e = .errno 22 → ¬ Doubtful m := fun he h => hd (Or.inr (Or.inr ⟨he, h⟩))
    rw [late_exact env attr m e hd, ← missing_none env m hm, ← ring_iff]
    unfold lateReport
    cases missing env m with
    | some g => simp
    | none =>
      dsimp only
      split
      · next h => simp only [true_iff]; exact ⟨h.1, hnd h.1, (by trivial), h.2.1, h.2.2⟩
      · next h =>
        constructor
        · intro h; cases h
        · rintro ⟨h1, _, _, h2, h3⟩; exact absurd ⟨h1, h2, h3⟩ h

theorem hints (env : Env) (attr : Attr) (m : MSpec) (e : KErr) (he : e ≠ .errno 22) (hm : e ≠ .errno 1) :
    handleError env attr m e = .cause .none ∨ ∃ f, handleError env attr m e = .feature f := by
  unfold handleError
  split
  · exact Or.inl rfl
  · rw [if_neg (show ¬ e = .errno eperm from hm), if_neg (show ¬ e = .errno einval from he)]
    dsimp only
    unfold lateReport
    split
    · exact Or.inr ⟨_, rfl⟩
    · rw [if_neg (fun h => he h.1)]; exact Or.inl rfl

/-- **C112, hints.** Each of the other reports, exactly: an exhausted memory limit (EPERM), no entries, no type, and preallocation. -/
theorem report_hints (env : Env) (attr : Attr) (m : MSpec) (e : KErr) :
    (handleError env attr m e = .cause .memlock ↔ e = .errno 1) ∧
    (handleError env attr m e = .cause .zeroEntries ↔ e = .errno 22 ∧ m.maxEntries = 0 ∧ ¬ StorageType m.type) ∧
    (handleError env attr m e = .unspecified ↔ e = .errno 22 ∧ m.type = 0 ∧ m.maxEntries ≠ 0) ∧
    (handleError env attr m e = .cause .preallocIncompatible ↔ e = .errno 22 ∧ (m.maxEntries = 0 → StorageType m.type) ∧ m.type ≠ 0 ∧ m.flags.getLsbD 0 = true ∧
      ¬ DynamicType m.type) ∧
    (handleError env attr m e = .cause .preallocNeeded ↔ e = .errno 22 ∧ (m.maxEntries = 0 → StorageType m.type) ∧ m.flags.getLsbD 0 = false ∧ DynamicType m.type) := by
  by_cases h1 : e = .errno 1
  · subst h1
    have : handleError env attr m (.errno 1) = .cause .memlock := rfl
    rw [this]; simp
  by_cases h22 : e = .errno 22
  · subst h22
    have hlate : ∀ h : Hint, h ≠ .none → h ≠ .ringSize → lateReport env attr m (.errno 22) ≠ .cause h := by
      intro h h1 h2 hh
      unfold lateReport at hh
      split at hh
      · cases hh
      · split at hh
        · cases hh; exact h2 rfl
        · cases hh; exact h1 rfl
    have hlate2 : lateReport env attr m (.errno 22) ≠ .unspecified := by
      intro hh
      unfold lateReport at hh
      split at hh
      · cases hh
      · split at hh <;> cases hh
    have step : handleError env attr m (.errno 22) = match invalidHint m with | some r => r | none => lateReport env attr m (.errno 22) := rfl
    rw [step]
    have dz : ¬ DynamicType 0 := by unfold DynamicType; decide
    have sz : ¬ StorageType 0 := by unfold StorageType; decide
    have e5 := bit0 m.flags
    have l1 := hlate .memlock (by decide) (by decide)
    have l2 := hlate .zeroEntries (by decide) (by decide)
    have l3 := hlate .preallocIncompatible (by decide) (by decide)
    have l4 := hlate .preallocNeeded (by decide) (by decide)
    have i1 : m.maxEntries = 0 ∧ ¬ StorageType m.type → invalidHint m = some (.cause .zeroEntries) := by
      intro c1
      unfold invalidHint
      rw [if_pos (by rw [← storage_iff]; exact c1)]
    have i2 : ¬ (m.maxEntries = 0 ∧ ¬ StorageType m.type) → m.type = 0 → invalidHint m = some .unspecified := by
      intro c1 c2
      unfold invalidHint
      rw [if_neg (by rw [← storage_iff]; exact c1), if_pos c2]
    have i3 : ¬ (m.maxEntries = 0 ∧ ¬ StorageType m.type) → m.type ≠ 0 → m.flags.getLsbD 0 = true ∧ ¬ DynamicType m.type → invalidHint m = some (.cause .preallocIncompatible) := by
      intro c1 c2 c3
      unfold invalidHint
      rw [if_neg (by rw [← storage_iff]; exact c1), if_neg c2, if_pos (by rw [← dynamic_iff, Ne, e5]; simpa using c3)]
    have i4 : ¬ (m.maxEntries = 0 ∧ ¬ StorageType m.type) → m.type ≠ 0 → m.flags.getLsbD 0 = false ∧ DynamicType m.type → invalidHint m = some (.cause .preallocNeeded) := by
      intro c1 c2 c3
      unfold invalidHint
      rw [if_neg (by rw [← storage_iff]; exact c1), if_neg c2, if_neg (by rw [← dynamic_iff, Ne, e5]; simp [c3]), if_pos (by rw [← dynamic_iff, e5]; exact c3)]
    have i5 : ¬ Doubtful m → invalidHint m = none := (hint_none m).2
    have d0 : m.type = 0 → ¬ DynamicType m.type ∧ ¬ StorageType m.type := fun h => by rw [h]; exact ⟨dz, sz⟩
    by_cases c1 : m.maxEntries = 0 ∧ ¬ StorageType m.type
    · rw [i1 c1]; grind
    · by_cases c2 : m.type = 0
      · rw [i2 c1 c2]; grind
      · by_cases c3 : m.flags.getLsbD 0 = true ∧ ¬ DynamicType m.type
        · rw [i3 c1 c2 c3]; grind
        · by_cases c4 : m.flags.getLsbD 0 = false ∧ DynamicType m.type
          · rw [i4 c1 c2 c4]; grind
          · rw [i5 (by unfold Doubtful; grind)]; dsimp only; grind
  · have := hints env attr m e h22 h1
    rcases this with h | ⟨f, h⟩ <;> rw [h] <;> simp [h1, h22]

/-- **C112, the cause.** If the spec has a type and no feature that it uses is missing, the error of the system call can be unwrapped. -/
theorem report_cause (env : Env) (attr : Attr) (m : MSpec) (e : KErr) (hm : Linux m) (ht : m.type ≠ 0) (hf : NothingMissing env m) :
    ∃ h, handleError env attr m e = .cause h := by
  cases hr : handleError env attr m e with
  | cause h => exact ⟨h, rfl⟩
  | unspecified => exact absurd (((report_hints env attr m e).2.2.1.1 hr).2.1) ht
  | feature f =>
    obtain ⟨_, _, _, _, hu, hp, _⟩ := (report_feature env attr m e hm f).1 hr
    exact absurd (hf f hu) hp

/-- **C112, the cause.** Missing privileges are never hidden. -/
theorem report_privileges (env : Env) (attr : Attr) (m : MSpec) : handleError env attr m .token = .cause .none ∧ handleError env attr m (.errno 1) = .cause .memlock :=
  ⟨rfl, rfl⟩
/-! ## Non-vacuity -/

section Examples

/-- A kernel that knows everything, but refuses BTF. -/
def exEnv : Env :=
  { cpus := some 4, objName := .ok, allowsDot := .notSupported, kv := .ok (some 9) 1 2, valueIsStruct := true, target := some (64, 33, some 12),
    nestedMaps := .ok, mutability := .ok, mmapable := .ok, innerMaps := .ok, noPrealloc := .ok, pageSize := 4096,
    create := fun a => if a.btfFd ≠ 0 then .error (.errno 22) else .ok 5 }

/-- "a.b-c", an array. -/
def exSpec : Spec := ⟨[0x61, 0x2e, 0x62, 0x2d, 0x63], ⟨2, 4, 8, 1, 0⟩, 0, 0, true, true⟩

/-- Its name is "abc". -/
example : fillName exEnv exSpec.name = [0x61, 0x62, 0x63] ++ List.replicate 13 0#8 := by decide

/-- It is made without BTF in the end. -/
example : (createMap exEnv exSpec none).2 = .ok 5 ∧ (createMap exEnv exSpec none).1.map (·.btfFd) = [9, 0] := by decide

/-- struct_ops can't be made without BTF: the kernel's type is still asked for, and size and flags are those of that type. -/
example : ((createMap exEnv { exSpec with m := ⟨26, 4, 8, 1, 0⟩ } none).1.map fun a => (a.btfFd, a.btfKey, a.vmlinuxValue, a.valueObjFd, a.valueSize, a.flags)) =
  [(9, 0, 33, 12, 64, 32768), (0, 0, 33, 12, 64, 32768)] := by decide

/-- A ring buffer of 100 bytes. -/
example : handleError exEnv (plainAttr exEnv exSpec ⟨27, 0, 0, 100, 0⟩ none) ⟨27, 0, 0, 100, 0⟩ (.errno 22) = .cause .ringSize := by decide

/-- An array that can be mapped, on a kernel that can't, with ENOMEM. -/
example : handleError { exEnv with mmapable := .notSupported } (plainAttr exEnv exSpec ⟨2, 4, 4, 1, 1024⟩ none) ⟨2, 4, 4, 1, 1024⟩ (.errno 12) = .feature .mmapable := by decide

end Examples

end Ebpf.MapAttr
