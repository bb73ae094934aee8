import Verif.Model.PerfReader
import Verif.Props.Perf
import Verif.Lemmas.Ringbuf
/-! # C22 under concurrency, C20 (perf), C23 -/
namespace Ebpf.Perf

theorem store_ne (cap : Nat) (mem : Nat → Byte) (p : Nat) (bs : Bytes) (q : Nat) (h1 : q < p) (h2 : p + bs.length ≤ q + cap) :
    store cap mem p bs (q % cap) = mem (q % cap) := by
  induction bs generalizing mem p with
  | nil => rfl
  | cons b bs ih =>
    simp only [List.length_cons] at h2
    rw [store, ih _ (p + 1) (by omega) (by omega)]
    rw [if_neg (Ringbuf.mod_ne cap p q (by omega) (by omega) (by omega))]

theorem store_eq (cap : Nat) (mem : Nat → Byte) (p : Nat) (bs : Bytes) (j : Nat) (b : Byte) (hj : bs[j]? = some b) (h : bs.length ≤ cap) :
    store cap mem p bs ((p + j) % cap) = b := by
  induction bs generalizing mem p j with
  | nil => simp at hj
  | cons x bs ih =>
    simp only [List.length_cons] at h
    rw [store]
    cases j with
    | zero =>
      simp at hj; subst hj
      show store cap (fun i => if i = p % cap then x else mem i) (p + 1) bs (p % cap) = x
      rw [store_ne cap _ (p + 1) bs p (by omega) (by omega), if_pos rfl]
    | succ j =>
      simp at hj
      have := ih (fun i => if i = p % cap then x else mem i) (p + 1) j hj (by omega)
      rw [show p + (j + 1) = p + 1 + j by omega]; exact this

structure KInv (k : Nat) (s : KSt) : Prop where
  cap : s.cap = 2 ^ k
  small : k < 63
  pos : ∃ l : Nat, At s.cur k (s.base + s.got.length) l ∧ l ≤ s.head
  pub : s.pub ≤ s.base + s.got.length
  fits : s.head ≤ s.pub + 2 ^ k
  ring : s.cur.ring = s.mem
  mem : ∀ (j : Nat) (b : Byte), s.stream[j]? = some b → s.pub ≤ s.base + j → s.mem ((s.base + j) % s.cap) = b
  got : s.got = s.stream.take s.got.length

theorem window_stream (k : Nat) (s : KSt) (hi : KInv k s) (p n : Nat) (hp : s.pub ≤ s.base + p) (hn : p + n ≤ s.stream.length) :
    window s.cap s.mem (s.base + p) n = (s.stream.drop p).take n := by
  apply List.ext_getElem?
  intro i
  by_cases hlt : i < n
  · have hl : p + i < s.stream.length := by omega
    have := hi.mem (p + i) s.stream[p + i] (by simp [hl]) (by omega)
    simp only [window, List.getElem?_map, List.getElem?_range hlt, Option.map_some, List.getElem?_take, hlt, if_true, List.getElem?_drop]
    rw [Nat.add_assoc, this]; simp [hl]
  · rw [List.getElem?_eq_none (by simp [window]; omega), List.getElem?_eq_none (by simp; omega)]

theorem kinv_step (k : Nat) (s s' : KSt) (hi : KInv k s) (st : KStep s s') : KInv k s' := by
  obtain ⟨hcap, hk, ⟨l, hat, hl⟩, hpub, hfits, hring, hmem, hgot⟩ := hi
  have hi' : KInv k s := ⟨hcap, hk, ⟨l, hat, hl⟩, hpub, hfits, hring, hmem, hgot⟩
  have hgl : s.got.length ≤ s.stream.length := by have := congrArg List.length hgot; rw [List.length_take] at this; omega
  have hph : s.pub ≤ s.head := by simp only [KSt.head]; omega
  cases st with
  | produce bs h =>
    have hhead : KSt.head { s with mem := store s.cap s.mem s.head bs, stream := s.stream ++ bs, cur := { s.cur with ring := store s.cap s.mem s.head bs } } = s.head + bs.length := by
      simp [KSt.head]; omega
    refine ⟨hcap, hk, ⟨l, ⟨hat.cap, hat.small, hat.pos, hat.limit, hat.le, hat.fits⟩, by rw [hhead]; omega⟩, hpub, ?_, rfl, ?_, ?_⟩
    · rw [hhead]; simp only; rw [hcap] at h; omega
    · intro j b hj hp
      simp only at hj hp ⊢
      by_cases hlt : j < s.stream.length
      · rw [List.getElem?_append_left hlt] at hj
        rw [store_ne s.cap s.mem s.head bs (s.base + j) (by simp only [KSt.head]; omega) (by omega)]
        exact hmem j b hj hp
      · rw [List.getElem?_append_right (by omega)] at hj
        have := store_eq s.cap s.mem s.head bs (j - s.stream.length) b hj (by omega)
        rw [show s.base + j = s.head + (j - s.stream.length) by simp only [KSt.head]; omega]
        exact this
    · simp only; rw [List.take_append_of_le_length hgl]; exact hgot
  | loadHead =>
    refine ⟨hcap, hk, ⟨s.head, ⟨hat.cap, hat.small, hat.pos, rfl, ?_, ?_⟩, Nat.le_refl _⟩, hpub, hfits, hring, hmem, hgot⟩
    · simp only [KSt.head]; omega
    · simp only; omega
  | read n bs eof c' h =>
    obtain ⟨m, h1, h2, h3, h4, h5, h6⟩ := read_spec hat n
    rw [h5] at h
    simp only [Option.some.injEq, Prod.mk.injEq] at h
    obtain ⟨rfl, rfl, rfl⟩ := h
    have hml : s.got.length + m ≤ s.stream.length := by simp only [KSt.head] at hl; have := hat.le; omega
    refine ⟨hcap, hk, ⟨l, ?_, hl⟩, ?_, hfits, hring, hmem, ?_⟩
    · simp only [List.length_append, window_length, ← Nat.add_assoc]; exact h6
    · simp only [List.length_append, window_length]; omega
    · simp only [List.length_append, window_length]
      rw [hat.cap, ← hcap, hring, window_stream k s hi' s.got.length m hpub hml]
      rw [List.take_add]
      congr 1
  | writeTail p h hp =>
    refine ⟨hcap, hk, ⟨l, hat, hl⟩, by simp only; omega, ?_, hring, ?_, hgot⟩
    · have : s.head ≤ p + 2 ^ k := by omega
      exact this
    · intro j b hj hpj; exact hmem j b hj (by simp only at hpj; omega)

theorem kinv_reach (k base : Nat) (mem : Nat → Byte) (hk : k < 63) (s : KSt) (h : KReach k base mem s) : KInv k s := by
  induction h with
  | init =>
    refine ⟨rfl, hk, ⟨base, ⟨rfl, hk, rfl, rfl, by simp, by simp⟩, by simp [KSt.head]⟩, by simp, by simp [KSt.head], rfl, by simp, by simp⟩
  | step _ st ih => exact kinv_step k _ _ ih st

/-- C22: whatever the kernel writes meanwhile, the bytes read so far are a prefix of the bytes produced, in order. -/
theorem read_is_prefix (k base : Nat) (mem : Nat → Byte) (hk : k < 63) (s : KSt) (h : KReach k base mem s) :
    s.got = s.stream.take s.got.length :=
  (kinv_reach k base mem hk s h).got

/-- C22: the reader's position is valid in every reachable state, the bytes it may still read are exactly the next
produced bytes, and data_tail never passes what was read. Together with `readAll_records` this gives
record-level delivery under any interleaving. -/
theorem unread_is_stream (k base : Nat) (mem : Nat → Byte) (hk : k < 63) (s : KSt) (h : KReach k base mem s) :
    ∃ l : Nat, At s.cur k (s.base + s.got.length) l ∧ l ≤ s.head ∧ s.pub ≤ s.base + s.got.length ∧
      unread s.cur (s.base + s.got.length) l = (s.stream.drop s.got.length).take (l - (s.base + s.got.length)) := by
  have hi := kinv_reach k base mem hk s h
  obtain ⟨l, hat, hl⟩ := hi.pos
  refine ⟨l, hat, hl, hi.pub, ?_⟩
  have hle := hat.le
  rw [unread, hat.cap, ← hi.cap, hi.ring]
  exact window_stream k s hi s.got.length _ hi.pub (by simp only [KSt.head] at hl; omega)

/-! ## C20: ReadInto -/

structure PInv (s : PR) : Prop where
  cnt : ∀ (i : Nat) (r : RingCnt), s.rings[i]? = some r → r.loaded ≤ r.produced
  waiting : s.ctl = .waiting → s.epollRings = [] ∧ s.pendingErr = none
  woken : s.ctl = .woken → s.epollRings = []
  drain : s.pendingErr ≠ none → s.marks.length = s.rings.length ∧ ∀ (i m : Nat) (r : RingCnt), s.marks[i]? = some m → s.rings[i]? = some r →
      m ≤ r.produced ∧ (s.ctl ≠ .woken → m ≤ r.loaded ∧ (i ∈ s.epollRings ∨ r.loaded ≤ r.read))
  log : ∀ (e : WRes) (marks reads : List Nat), RRes.pending e marks reads ∈ s.log →
      marks.length = reads.length ∧ ∀ (i m r : Nat), marks[i]? = some m → reads[i]? = some r → m ≤ r

theorem log_append {s : List RRes} {x : RRes} (h : ∀ (e : WRes) (marks reads : List Nat), RRes.pending e marks reads ∈ s →
      marks.length = reads.length ∧ ∀ (i m r : Nat), marks[i]? = some m → reads[i]? = some r → m ≤ r)
    (hx : ∀ (e : WRes) (marks reads : List Nat), x = .pending e marks reads →
      marks.length = reads.length ∧ ∀ (i m r : Nat), marks[i]? = some m → reads[i]? = some r → m ≤ r) :
    ∀ (e : WRes) (marks reads : List Nat), RRes.pending e marks reads ∈ s ++ [x] →
      marks.length = reads.length ∧ ∀ (i m r : Nat), marks[i]? = some m → reads[i]? = some r → m ≤ r := by
  intro e marks reads hm
  simp only [List.mem_append, List.mem_singleton] at hm
  rcases hm with hm | hm
  · exact h e marks reads hm
  · exact hx e marks reads hm.symm

theorem set_cases (l : List RingCnt) (i : Nat) (a b : RingCnt) (j : Nat) (r : RingCnt) (ha : l[i]? = some a) (h : (l.set i b)[j]? = some r) :
    (j = i ∧ r = b) ∨ (j ≠ i ∧ l[j]? = some r) := by
  rw [List.getElem?_set] at h
  have hl := (List.getElem?_eq_some_iff.mp ha).1
  by_cases he : i = j
  · subst he; simp [hl] at h; exact .inl ⟨rfl, h.symm⟩
  · simp [he] at h; exact .inr ⟨fun e => he e.symm, h⟩

theorem pinv_step (s s' : PR) (hi : PInv s) (hno : s.overwritable = false) (st : PStep s s') : PInv s' ∧ s'.overwritable = false := by
  obtain ⟨hcnt, hw, hwk, hd, hlog⟩ := hi
  cases st with
  | produce i r h =>
    refine ⟨⟨?_, hw, hwk, ?_, hlog⟩, hno⟩
    · intro j r' hr'
      rcases set_cases _ _ _ _ _ _ h hr' with ⟨rfl, rfl⟩ | ⟨_, hr'⟩
      · have := hcnt _ _ h; simp only; omega
      · exact hcnt _ _ hr'
    · intro hp
      obtain ⟨h1, h2⟩ := hd hp
      refine ⟨by simp [h1], ?_⟩
      intro j m r' hm hr'
      rcases set_cases _ _ _ _ _ _ h hr' with ⟨rfl, rfl⟩ | ⟨_, hr'⟩
      · have := h2 _ m r hm h; simp only; exact ⟨by omega, this.2⟩
      · exact h2 _ m r' hm hr'
  | pauseResume b h => exact ⟨⟨hcnt, hw, hwk, hd, hlog⟩, hno⟩
  | call h hp =>
    refine ⟨⟨hcnt, by simp, by simp, ?_, hlog⟩, hno⟩
    intro hp
    obtain ⟨h1, h2⟩ := hd hp
    refine ⟨h1, fun i m r hm hr => ⟨(h2 i m r hm hr).1, fun _ => (h2 i m r hm hr).2 (by simp [h])⟩⟩
  | callRefused h hp hq => rw [hno] at hp; cases hp
  | pending e h he hp =>
    refine ⟨⟨hcnt, by simp, by simp, by simp, log_append hlog ?_⟩, hno⟩
    intro e' marks reads hx
    cases hx
    obtain ⟨h1, h2⟩ := hd (by simp [hp])
    refine ⟨by simp [h1], ?_⟩
    intro i m r hm hr
    simp only [List.getElem?_map, Option.map_eq_some_iff] at hr
    obtain ⟨rc, hrc, rfl⟩ := hr
    have := (h2 i m rc hm hrc).2 (by simp [h])
    rw [he] at this
    simp at this
    omega
  | wait h he hp => exact ⟨⟨hcnt, fun _ => ⟨he, hp⟩, by simp, fun hc => absurd hp hc, hlog⟩, hno⟩
  | woken h =>
    obtain ⟨a, b⟩ := hw h
    exact ⟨⟨hcnt, by simp, fun _ => a, fun hc => absurd b hc, hlog⟩, hno⟩
  | interrupted e h he =>
    obtain ⟨a, b⟩ := hw h
    refine ⟨⟨hcnt, by simp, fun _ => a, fun _ => ⟨by simp, ?_⟩, hlog⟩, hno⟩
    intro i m r hm hr
    simp only [List.getElem?_map, hr, Option.map_some, Option.some.injEq] at hm
    exact ⟨by omega, fun hc => absurd rfl hc⟩
  | waitErr h =>
    obtain ⟨a, b⟩ := hw h
    refine ⟨⟨hcnt, by simp, by simp, fun hc => absurd b hc, log_append hlog ?_⟩, hno⟩
    intro _ _ _ hx; cases hx
  | recheck h ho hp => rw [hno] at ho; cases ho
  | loadAll h hp =>
    refine ⟨⟨?_, by simp, by simp, ?_, hlog⟩, hno⟩
    · intro i r hr
      simp only [List.getElem?_map, Option.map_eq_some_iff] at hr
      obtain ⟨rc, _, rfl⟩ := hr
      simp [RingCnt.load]
    · intro hp
      obtain ⟨h1, h2⟩ := hd hp
      refine ⟨by simp [h1], ?_⟩
      intro i m r hm hr
      simp only [List.getElem?_map, Option.map_eq_some_iff] at hr
      obtain ⟨rc, hrc, rfl⟩ := hr
      have := (h2 i m rc hm hrc).1
      have hl := (List.getElem?_eq_some_iff.mp hrc).1
      exact ⟨this, fun _ => ⟨this, .inl (by simp [hl])⟩⟩
  | record i r er h he hr hl =>
    refine ⟨⟨?_, by simp, by simp, ?_, log_append hlog ?_⟩, hno⟩
    · intro j r' hr'
      rcases set_cases _ _ _ _ _ _ hr hr' with ⟨rfl, rfl⟩ | ⟨_, hr'⟩
      · have := hcnt _ _ hr; simp only; omega
      · exact hcnt _ _ hr'
    · intro hp
      obtain ⟨h1, h2⟩ := hd hp
      refine ⟨by simp [h1], ?_⟩
      intro j m r' hm hr'
      rcases set_cases _ _ _ _ _ _ hr hr' with ⟨rfl, rfl⟩ | ⟨_, hr'⟩
      · have := h2 _ m r hm hr
        exact ⟨this.1, fun _ => ⟨(this.2 (by simp [h])).1, .inl (by rw [he]; simp)⟩⟩
      · have := h2 _ m r' hm hr'
        exact ⟨this.1, fun _ => this.2 (by simp [h])⟩
    · intro _ _ _ hx; cases hx
  | endOfRing i r er h he hr hl =>
    refine ⟨⟨hcnt, fun hc => absurd (h.symm.trans hc) (by simp), fun hc => absurd (h.symm.trans hc) (by simp), ?_, hlog⟩, hno⟩
    intro hp
    obtain ⟨h1, h2⟩ := hd hp
    refine ⟨h1, ?_⟩
    intro j m r' hm hr'
    have := h2 j m r' hm hr'
    refine ⟨this.1, fun _ => ⟨(this.2 (by simp [h])).1, ?_⟩⟩
    rcases (this.2 (by simp [h])).2 with hmem | hle
    · rw [he] at hmem
      simp only [List.mem_append, List.mem_singleton] at hmem
      rcases hmem with hmem | rfl
      · exact .inl hmem
      · simp only at hr'; rw [hr] at hr'; cases hr'; exact .inr hl
    · exact .inr hle

/-- C20 (perf): for a reader that is not overwritable, when ReadInto returns the flush or deadline error, every ring
has been read at least up to what it held when the wait was interrupted. -/
theorem perf_drains_first_partial (n : Nat) (s : PR) (h : PReach n false s) (e : WRes) (marks reads : List Nat)
    (hm : RRes.pending e marks reads ∈ s.log) :
    marks.length = reads.length ∧ ∀ (i m r : Nat), marks[i]? = some m → reads[i]? = some r → m ≤ r := by
  have : PInv s ∧ s.overwritable = false := by
    clear hm
    induction h with
    | init =>
      refine ⟨⟨?_, by simp, by simp, by simp, by simp⟩, rfl⟩
      intro i r hr
      simp only [List.getElem?_replicate] at hr
      split at hr
      · cases hr; exact Nat.le_refl _
      · cases hr
    | step _ st ih => exact pinv_step _ _ ih.1 ih.2 st
  exact this.1.log e marks reads hm

/-- The full statement of C20 for perf. -/
def PerfDrainsFirst (s : PR) : Prop := ∀ (e : WRes) (marks reads : List Nat), RRes.pending e marks reads ∈ s.log →
  ∀ (i m r : Nat), marks[i]? = some m → reads[i]? = some r → m ≤ r

/-- Finding: it is false for overwritable readers. Read blocks while paused; another goroutine calls Resume and Flush;
Read returns "must be paused" keeping the flush error; after Pause the next Read returns ErrFlushed at once although
the ring holds an unread record. -/
theorem perf_overwritable_flush_skips : ∃ s : PR, PReach 1 true s ∧ ¬ PerfDrainsFirst s := by
  have h0 : PReach 1 true ⟨List.replicate 1 ⟨0, 0, 0⟩, [], none, true, false, .out, [], []⟩ := .init
  have h1 := PReach.step h0 (.pauseResume _ true (.inl rfl))
  have h2 := PReach.step h1 (.call _ rfl (fun _ => rfl))
  have h3 := PReach.step h2 (.wait _ rfl rfl rfl)
  have h4 := PReach.step h3 (.pauseResume _ false (.inr rfl))
  have h5 := PReach.step h4 (.produce _ 0 ⟨0, 0, 0⟩ rfl)
  have h6 := PReach.step h5 (.interrupted _ .flushed rfl (.inr rfl))
  have h7 := PReach.step h6 (.recheck _ rfl rfl rfl)
  have h8 := PReach.step h7 (.pauseResume _ true (.inl rfl))
  have h9 := PReach.step h8 (.call _ rfl (fun _ => rfl))
  have h10 := PReach.step h9 (.pending _ .flushed rfl rfl rfl)
  refine ⟨_, h10, ?_⟩
  intro hc
  have := hc .flushed [1] [0] (by simp) 0 1 0 rfl rfl
  omega

/-- Concrete: flush with a pending record on the second of two rings. -/
example : ∃ s : PR, PReach 2 false s ∧ s.log = [.record 1, .pending .flushed [0, 1] [0, 1]] := by
  have h0 : PReach 2 false ⟨List.replicate 2 ⟨0, 0, 0⟩, [], none, false, false, .out, [], []⟩ := .init
  have h2 := PReach.step h0 (.call _ rfl (fun h => by cases h))
  have h3 := PReach.step h2 (.wait _ rfl rfl rfl)
  have h5 := PReach.step h3 (.produce _ 1 ⟨0, 0, 0⟩ rfl)
  have h6 := PReach.step h5 (.interrupted _ .flushed rfl (.inr rfl))
  have h7 := PReach.step h6 (.loadAll _ rfl (fun h => by cases h))
  have h8 := PReach.step h7 (.record _ 1 ⟨1, 1, 0⟩ [0] rfl rfl rfl (by decide))
  have h9 := PReach.step h8 (.call _ rfl (fun h => by cases h))
  have h10 := PReach.step h9 (.endOfRing _ 1 ⟨1, 1, 1⟩ [0] rfl rfl rfl (by decide))
  have h11 := PReach.step h10 (.endOfRing _ 0 ⟨0, 0, 0⟩ [] rfl rfl rfl (by decide))
  have h12 := PReach.step h11 (.pending _ .flushed rfl rfl rfl)
  exact ⟨_, h12, rfl⟩

/-! ## C23: Pause and Resume -/

/-- Full statement of C23: after Resume every online CPU finds its own ring and no other index holds one; after Pause
none does. -/
def ResumeOk (nCPU : Nat) (online : Nat → Bool) (fdOf : Nat → Nat) : Prop :=
  ∀ cpu : Nat, resume 0 (openRings nCPU online fdOf) (fun _ => none) cpu = if cpu < nCPU ∧ online cpu = true then some (fdOf cpu) else none

theorem resume_get (es : Events) (i : Nat) (a : Array') (j : Nat) :
    resume i es a j = if i ≤ j ∧ j < i + es.length then (es[j - i]?.map Prod.snd) else a j := by
  induction es generalizing i a with
  | nil => simp [resume]; intro h1 h2; omega
  | cons e es ih =>
    rw [resume, ih]
    by_cases h1 : i + 1 ≤ j ∧ j < i + 1 + es.length
    · rw [if_pos h1, if_pos (by simp; omega)]
      rw [show j - i = (j - (i + 1)) + 1 by omega, List.getElem?_cons_succ]
    · rw [if_neg h1]
      by_cases h2 : j = i
      · subst h2; simp [Array'.put]
      · rw [if_neg (by simp; omega)]; simp [Array'.put, h2]

/-- C23, for a machine on which all CPUs covered by the map are online. -/
theorem resume_addresses_cpus_partial (nCPU : Nat) (online : Nat → Bool) (fdOf : Nat → Nat) (hall : ∀ cpu : Nat, cpu < nCPU → online cpu = true) :
    ResumeOk nCPU online fdOf := by
  intro cpu
  have hf : (List.range nCPU).filter online = List.range nCPU := by
    rw [List.filter_eq_self]; intro a ha; exact hall a (by simpa using ha)
  rw [resume_get]
  simp only [openRings, hf, List.length_map, List.length_range, Nat.zero_le, true_and, Nat.zero_add, Nat.sub_zero]
  by_cases h : cpu < nCPU
  · simp [h, hall cpu h]
  · simp [h]

/-- More generally, when the offline CPUs are the last ones. -/
theorem resume_addresses_prefix_partial (nCPU m : Nat) (online : Nat → Bool) (fdOf : Nat → Nat) (hm : m ≤ nCPU)
    (hall : ∀ cpu : Nat, cpu < nCPU → online cpu = decide (cpu < m)) : ResumeOk nCPU online fdOf := by
  intro cpu
  have hf : (List.range nCPU).filter online = List.range m := by
    obtain ⟨d, rfl⟩ := Nat.exists_eq_add_of_le hm
    rw [List.range_add, List.filter_append, List.filter_eq_self.mpr, List.filter_eq_nil_iff.mpr, List.append_nil]
    · intro a ha
      simp only [List.mem_map, List.mem_range] at ha
      obtain ⟨x, hx, rfl⟩ := ha
      rw [hall _ (by omega)]; simp
    · intro a ha
      simp only [List.mem_range] at ha
      rw [hall a (by omega)]; simpa using ha
  rw [resume_get]
  simp only [openRings, hf, List.length_map, List.length_range, Nat.zero_le, true_and, Nat.zero_add, Nat.sub_zero]
  by_cases h : cpu < m
  · simp [h, show cpu < nCPU by omega, hall cpu (by omega)]
  · by_cases h2 : cpu < nCPU
    · simp [h, hall cpu h2]
    · simp [h, h2]

/-- Finding: with CPU 0 offline, ring 0 of `eventFds` belongs to CPU 1 but is stored at index 0: CPU 1 has no ring, and
the kernel refuses events from a CPU whose entry belongs to another one. -/
theorem resume_offline_cpu_wrong : ¬ ResumeOk 2 (fun c => c == 1) (fun c => 100 + c) := by
  intro h
  have := h 1
  revert this; decide

theorem pause_get (es : Events) (i : Nat) (a : Array') (j : Nat) :
    pause i es a j = if i ≤ j ∧ j < i + es.length then none else a j := by
  induction es generalizing i a with
  | nil => simp [pause]; intro h1 h2; omega
  | cons e es ih =>
    rw [pause, ih]
    by_cases h1 : i + 1 ≤ j ∧ j < i + 1 + es.length
    · rw [if_pos h1, if_pos (by simp; omega)]
    · rw [if_neg h1]
      by_cases h2 : j = i
      · subst h2; simp [Array'.delete]
      · rw [if_neg (by simp; omega)]; simp [Array'.delete, h2]

/-- C23: Pause undoes Resume (whatever set of CPUs is online), touching no other entry. -/
theorem pause_undoes_resume (es : Events) (a : Array') (h : ∀ j : Nat, j < es.length → a j = none) :
    pause 0 es (resume 0 es a) = a := by
  funext j
  rw [pause_get, resume_get]
  simp only [Nat.zero_le, true_and, Nat.zero_add]
  by_cases hj : j < es.length
  · simp [hj, h j hj]
  · simp [hj]

example : ResumeOk 3 (fun c => decide (c < 2)) (fun c => 10 + c) := resume_addresses_prefix_partial 3 2 _ _ (by decide) (fun _ _ => rfl)

end Ebpf.Perf
