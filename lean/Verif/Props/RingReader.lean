import Verif.Model.RingReader
import Verif.Props.Ringbuf
/-! # C20 (ring buffer): flush and deadline drain first -/
namespace Ebpf.RingReader
open Ringbuf

/-- The ring part of every reachable system is reachable in the ring system. -/
theorem ring_reach (bo : ByteOrder) (k base : Nat) (mem : Nat → Byte) (s : Sys) (h : RReach bo k base mem s) :
    Reach bo k base mem s.ring := by
  induction h with
  | init => exact .init
  | step _ st ih =>
    cases st with
    | producer r' h => exact .step ih h
    | call => exact ih
    | load hc hp => exact .step ih (.load _ hp)
    | success r' hc h => exact .step ih h
    | drained prod e hc hp h hd => exact .step ih (.endOfRing _ prod hp h)
    | empty prod hc hp h hd => exact .step ih (.endOfRing _ prod hp h)
    | woken => exact ih
    | interrupted => exact ih
    | failed => exact ih
    | user r' hc h => exact .step ih h

/-- Steps that keep the reader's part keep all positions up to the old end. -/
theorem step_pos (bo : ByteOrder) (mask : BitVec 64) (s s' : St) (h : Step bo mask s s') (i : Nat) (hi : i ≤ s.recs.length) :
    s'.pos i = s.pos i ∧ s.recs.length ≤ s'.recs.length := by
  cases h with
  | reserve len pg =>
    exact ⟨pos_append s (s.reserved bo len pg) i _ rfl rfl hi, by simp [St.reserved]⟩
  | commit j r d hr hb =>
    exact ⟨pos_set s { s with ring := s.ring.putLen bo (s.pos j) (s.finished j r d).header, recs := s.recs.set j (s.finished j r d) }
      j i r _ rfl rfl hr rfl, by simp⟩
  | _ => exact ⟨rfl, Nat.le_refl _⟩

structure RInv (s : Sys) : Prop where
  mark : s.mark ≤ s.ring.recs.length
  waiting : s.ctl = .waiting → s.drainErr = none ∧ s.ring.pc = .idle
  out : s.ctl = .out → ∀ prod : BitVec 64, s.ring.pc ≠ .loaded prod
  loaded : ∀ prod : BitVec 64, s.ring.pc = .loaded prod → s.drainErr ≠ none →
    ∃ q : Nat, s.mark ≤ q ∧ s.ring.rd ≤ q ∧ q ≤ s.ring.recs.length ∧ prod = BitVec.ofNat 64 (s.ring.pos q)
  rets : ∀ r ∈ s.rets, r.mark ≤ r.rd ∧ r.rd ≤ s.ring.rd
  ints : s.ints = s.rets.map (·.err) ++ s.drainErr.toList

theorem step_rd (bo : ByteOrder) (mask : BitVec 64) (s s' : St) (h : Step bo mask s s') : s.rd ≤ s'.rd := by
  cases h <;> simp [St.reserved]

theorem rinv_step (bo : ByteOrder) (k base : Nat) (mem : Nat → Byte) (hk3 : 3 ≤ k) (hk : k < 64) (s s' : Sys)
    (hr : RReach bo k base mem s) (hi : RInv s) (st : RStep bo (BitVec.ofNat 64 (2 ^ k - 1)) s s') : RInv s' := by
  have ring := inv_reach bo k base mem hk3 hk _ (ring_reach bo k base mem s hr)
  cases st with
  | producer r' h h1 h2 h3 h4 =>
    have hl := fun (i : Nat) (hi : i ≤ s.ring.recs.length) => step_pos bo _ _ _ h i hi
    have hlen := (hl 0 (by omega)).2
    refine ⟨Nat.le_trans hi.mark hlen, ?_, ?_, ?_, ?_, hi.ints⟩
    · intro hc; simp only [h1]; exact hi.waiting hc
    · intro hc prod; simp only [h1]; exact hi.out hc prod
    · intro prod hp hd
      simp only [h1] at hp
      obtain ⟨q, a, b, c, d⟩ := hi.loaded prod hp hd
      exact ⟨q, a, by simp only [h2]; exact b, Nat.le_trans c hlen, by simp only [(hl q c).1]; exact d⟩
    · intro r hm; simp only [h2]; exact hi.rets r hm
  | call hc hp =>
    refine ⟨hi.mark, by simp, by simp, ?_, hi.rets, hi.ints⟩
    intro prod hq; simp only [hp] at hq; cases hq
  | load hc hp =>
    refine ⟨hi.mark, fun h => absurd (hc.symm.trans h) (by simp), fun h => absurd (hc.symm.trans h) (by simp), ?_, hi.rets, hi.ints⟩
    intro prod hq _
    simp only [PC.loaded.injEq] at hq
    exact ⟨s.ring.recs.length, hi.mark, ring.rdlen, Nat.le_refl _, by rw [← hq]; exact ring.prod⟩
  | success r' hc h hr' =>
    have hl := fun (i : Nat) (hi : i ≤ s.ring.recs.length) => step_pos bo _ _ _ h i hi
    have hlen := (hl 0 (by omega)).2
    have hpc : ∀ prod : BitVec 64, r'.pc ≠ .loaded prod := by
      intro prod hp
      cases h <;> simp_all [St.reserved]
    refine ⟨Nat.le_trans hi.mark hlen, by simp, fun _ => hpc, fun prod hp => absurd hp (hpc prod), ?_, hi.ints⟩
    intro r hm
    have := hi.rets r hm
    simp only [hr']; omega
  | drained prod e hc hp h hd =>
    refine ⟨hi.mark, by simp, by simp, by simp, ?_, ?_⟩
    · intro r hm
      simp only [List.mem_append, List.mem_singleton] at hm
      rcases hm with hm | rfl
      · exact hi.rets r hm
      · obtain ⟨q, a, b, c, d⟩ := hi.loaded prod hp (by simp [hd])
        obtain ⟨_, f2⟩ := ring.first hk q b c
        rcases Nat.eq_or_lt_of_le b with he | hl
        · exact ⟨by simp only; omega, Nat.le_refl _⟩
        · rw [d, f2 hl] at h; cases h
    · simp [hi.ints, hd]
  | empty prod hc hp h hd =>
    exact ⟨hi.mark, by simp [hd], by simp, by simp, hi.rets, hi.ints⟩
  | woken hc =>
    refine ⟨hi.mark, by simp, by simp, ?_, hi.rets, hi.ints⟩
    intro prod hp; have := (hi.waiting hc).2; simp only [this] at hp; cases hp
  | interrupted w hc hw =>
    refine ⟨Nat.le_refl _, by simp, by simp, ?_, hi.rets, ?_⟩
    · intro prod hp; have := (hi.waiting hc).2; simp only [this] at hp; cases hp
    · simp [hi.ints, (hi.waiting hc).1]
  | failed w hc hw =>
    refine ⟨hi.mark, by simp, ?_, hi.loaded, hi.rets, hi.ints⟩
    intro _ prod hp; have := (hi.waiting hc).2; simp only [this] at hp; cases hp
  | user r' hc h hrd hp hp' =>
    have hl := fun (i : Nat) (hi : i ≤ s.ring.recs.length) => step_pos bo _ _ _ h i hi
    have hlen := (hl 0 (by omega)).2
    refine ⟨Nat.le_trans hi.mark hlen, ?_, ?_, ?_, ?_, hi.ints⟩
    · intro h'; simp only [hc] at h'; cases h'
    · intro _ prod; simp [hp]
    · intro prod hq; simp only [hp] at hq; cases hq
    · intro r hm; simp only [hrd]; exact hi.rets r hm

theorem rinv_reach (bo : ByteOrder) (k base : Nat) (mem : Nat → Byte) (hk3 : 3 ≤ k) (hk : k < 64) (s : Sys)
    (h : RReach bo k base mem s) : RInv s := by
  induction h with
  | init => constructor <;> simp [St.init]
  | step hr st ih => exact rinv_step bo k base mem hk3 hk _ _ hr ih st

/-- C20: whenever a read returns the flush or deadline error, every record that had been reserved when the wait
was interrupted has been read before (and, by `delivered_in_order`, the committed ones delivered). -/
theorem interrupted_reads_drain_first (bo : ByteOrder) (k base : Nat) (mem : Nat → Byte) (hk3 : 3 ≤ k) (hk : k < 64) (s : Sys)
    (h : RReach bo k base mem s) : ∀ r ∈ s.rets, r.mark ≤ r.rd ∧ r.rd ≤ s.ring.rd :=
  (rinv_reach bo k base mem hk3 hk s h).rets

/-- C20: at the moment the error is returned the ring is empty as of the producer position just read, and
everything reserved before the interruption has been delivered or discarded. -/
theorem drained_means_empty (bo : ByteOrder) (k base : Nat) (mem : Nat → Byte) (hk3 : 3 ≤ k) (hk : k < 64) (s s' : Sys)
    (h : RReach bo k base mem s) (st : RStep bo (BitVec.ofNat 64 (2 ^ k - 1)) s s') (hret : s'.rets ≠ s.rets) :
    s'.ring.pc = .idle ∧ s'.ring.delivered = committed (s'.ring.recs.take s'.ring.rd) ∧ s'.mark ≤ s'.ring.rd ∧ s'.drainErr = none := by
  have h' := RReach.step h st
  have hd := delivered_in_order bo k base mem hk3 hk _ (ring_reach bo k base mem s' h')
  have hi := rinv_reach bo k base mem hk3 hk s' h'
  cases st with
  | drained prod e hc hp h hdr =>
    have := hi.rets ⟨e, s.mark, s.ring.rd⟩ (by simp)
    exact ⟨rfl, hd rfl, this.1, rfl⟩
  | _ => exact absurd rfl hret

/-- C20: every interruption is reported exactly once, in order; at most one is still pending. -/
theorem interruptions_reported_once (bo : ByteOrder) (k base : Nat) (mem : Nat → Byte) (hk3 : 3 ≤ k) (hk : k < 64) (s : Sys)
    (h : RReach bo k base mem s) : s.ints = s.rets.map (·.err) ++ s.drainErr.toList :=
  (rinv_reach bo k base mem hk3 hk s h).ints

/-- C20: only a deadline and a flush let a read drain the ring first, so these are all the errors that are reported after draining. -/
theorem only_interruptions_drain (bo : ByteOrder) (k base : Nat) (mem : Nat → Byte) (s : Sys) (h : RReach bo k base mem s) :
    (∀ w ∈ s.ints, w = .deadline ∨ w = .flushed) ∧ (∀ w, s.drainErr = some w → w = .deadline ∨ w = .flushed) ∧
    ∀ r ∈ s.rets, r.err = .deadline ∨ r.err = .flushed := by
  induction h with
  | init => simp
  | step _ st ih =>
    obtain ⟨a, b, c⟩ := ih
    cases st with
    | drained prod e hc hp h hd =>
      refine ⟨a, fun w hw => (by cases hw), fun r hr => ?_⟩
      rcases List.mem_append.1 hr with hr | hr
      · exact c r hr
      · rw [List.mem_singleton] at hr; subst hr; exact b e hd
    | interrupted w hc hw =>
      have d : w = .deadline ∨ w = .flushed := by cases w <;> simp_all [WaitRes.drains]
      refine ⟨fun x hx => ?_, fun x hx => ?_, c⟩
      · rcases List.mem_append.1 hx with hx | hx
        · exact a x hx
        · rw [List.mem_singleton] at hx; subst hx; exact d
      · injection hx with hx; subst hx; exact d
    | _ => exact ⟨a, b, c⟩

/-- Concrete: a sample arrives without wakeup, Flush interrupts the wait, the sample is read, the next read
returns the flush error. -/
example : ∃ s : Sys, RReach .little 6 0 (fun _ => 0) s ∧ s.rets = [⟨.flushed, 1, 1⟩] ∧ s.ring.delivered = [[]] := by
  have h0 : RReach .little 6 0 (fun _ => 0) ⟨St.init 6 0 (fun _ => 0), none, .out, 0, [], []⟩ := .init
  have h1 := RReach.step h0 (.call _ rfl rfl)
  have h2 := RReach.step h1 (.load _ rfl rfl)
  have h3 := RReach.step h2 (.empty _ 0 rfl rfl (by decide) rfl)
  have h4 := RReach.step h3 (.producer _ _ (.reserve _ 0 (0, 0, 0, 0) (by decide) (by decide)) rfl rfl rfl rfl)
  have h5 := RReach.step h4 (.producer _ _ (.commit _ 0 ⟨0, .busy, []⟩ false (by decide) rfl) rfl rfl rfl rfl)
  have h6 := RReach.step h5 (.interrupted _ .flushed rfl rfl)
  have h7 := RReach.step h6 (.load _ rfl rfl)
  have h8 := RReach.step h7 (.success _ _ rfl (.sample _ _ 0 ⟨8, 0⟩ 0 8 rfl (by decide) (by decide +kernel)) rfl)
  have h9 := RReach.step h8 (.user _ _ rfl (.copy _ _ rfl) rfl rfl (.inr ⟨_, rfl⟩))
  have h10 := RReach.step h9 (.call _ rfl rfl)
  have h11 := RReach.step h10 (.load _ rfl rfl)
  have h12 := RReach.step h11 (.drained _ 8 .flushed rfl rfl (by decide) rfl)
  exact ⟨_, h12, rfl, by decide +kernel⟩

/-! # C21: Close -/

/-- A lease between the successful CAS and `leave`. -/
def LPC.holds : LPC → Bool
  | .gotInflight | .refused | .inside | .leaving => true
  | _ => false

/-- A closer that won. -/
def CPC.active : CPC → Bool
  | .won | .pollerClosed | .unmap => true
  | _ => false

structure CInv (s : CSys) : Prop where
  holders : (s.leases.filter LPC.holds).length = if s.inflight then 1 else 0
  active : (s.closers.filter CPC.active).length + s.unmaps ≤ if s.closed then 1 else 0
  mapped : s.mapped = decide (s.unmaps = 0)
  safe : (s.mapped = false ∨ CPC.unmap ∈ s.closers) → ∀ l ∈ s.leases, l ≠ .inside ∧ l ≠ .leaving

theorem filter_set_length {α : Type} (p : α → Bool) (l : List α) (i : Nat) (a b : α) (h : l[i]? = some a) :
    ((l.set i b).filter p).length + (if p a then 1 else 0) = (l.filter p).length + (if p b then 1 else 0) := by
  induction l generalizing i with
  | nil => simp at h
  | cons x l ih =>
    cases i with
    | zero =>
      simp at h; subst h
      simp only [List.set_cons_zero, List.filter_cons]
      cases p x <;> cases p b <;> simp
    | succ i =>
      simp at h
      have := ih i h
      simp only [List.set_cons_succ, List.filter_cons]
      cases p x <;> simp <;> omega

theorem set_same {α : Type} (p : α → Bool) (l : List α) (i : Nat) (a b : α) (h : l[i]? = some a) (e : p a = p b) :
    ((l.set i b).filter p).length = (l.filter p).length := by
  have := filter_set_length p l i a b h
  rw [e] at this; omega

theorem set_up {α : Type} (p : α → Bool) (l : List α) (i : Nat) (a b : α) (h : l[i]? = some a) (ha : p a = false) (hb : p b = true) :
    ((l.set i b).filter p).length = (l.filter p).length + 1 := by
  have := filter_set_length p l i a b h
  simpa [ha, hb] using this

theorem set_down {α : Type} (p : α → Bool) (l : List α) (i : Nat) (a b : α) (h : l[i]? = some a) (ha : p a = true) (hb : p b = false) :
    ((l.set i b).filter p).length + 1 = (l.filter p).length := by
  have := filter_set_length p l i a b h
  simpa [ha, hb] using this

theorem mem_set' {α : Type} (l : List α) (i : Nat) (b x : α) (h : x ∈ l.set i b) : x = b ∨ x ∈ l := by
  rw [List.mem_iff_getElem?] at h
  obtain ⟨j, hj⟩ := h
  rw [List.getElem?_set] at hj
  split at hj
  · split at hj
    · cases hj; exact .inl rfl
    · cases hj
  · exact .inr (List.mem_of_getElem? hj)

theorem filter_pos {α : Type} (p : α → Bool) (l : List α) (i : Nat) (a : α) (h : l[i]? = some a) (hp : p a = true) :
    1 ≤ (l.filter p).length := by
  have : a ∈ l.filter p := List.mem_filter.mpr ⟨List.mem_of_getElem? h, hp⟩
  exact List.length_pos_of_mem this

theorem cinv_step (s s' : CSys) (hi : CInv s) (st : CStep s s') : CInv s' := by
  obtain ⟨hh, ha, hm, hs⟩ := hi
  cases st with
  | newLease =>
    refine ⟨by simpa [List.filter_append, LPC.holds] using hh, ha, hm, ?_⟩
    intro h l hl
    simp only [List.mem_append, List.mem_singleton] at hl
    rcases hl with hl | rfl
    · exact hs h l hl
    · simp
  | newCloser =>
    refine ⟨hh, by simpa [List.filter_append, CPC.active] using ha, hm, ?_⟩
    intro h l hl
    apply hs _ l hl
    rcases h with h | h
    · exact .inl h
    · simp only [List.mem_append, List.mem_singleton] at h
      rcases h with h | h
      · exact .inr h
      · cases h
  | casOk i h hf =>
    have := set_up LPC.holds s.leases i _ .gotInflight h rfl rfl
    rw [hf] at hh
    refine ⟨this.trans (by rw [hh]; rfl), ha, hm, ?_⟩
    intro h' l hl
    rcases mem_set' _ _ _ _ hl with rfl | hl
    · simp
    · exact hs h' l hl
  | casFail i h hf =>
    have := set_same LPC.holds s.leases i _ (.done (some false)) h rfl
    refine ⟨this.trans hh, ha, hm, ?_⟩
    intro h' l hl
    rcases mem_set' _ _ _ _ hl with rfl | hl
    · simp
    · exact hs h' l hl
  | checkOpen i h hc =>
    have := set_same LPC.holds s.leases i _ .inside h rfl
    refine ⟨this.trans hh, ha, hm, ?_⟩
    intro h' l hl
    simp only [hc] at ha
    exfalso
    rcases h' with h' | h'
    · rw [show s.mapped = false from h'] at hm; simp at hm; simp only [Bool.false_eq_true, if_false] at ha; omega
    · have : 1 ≤ (s.closers.filter CPC.active).length := List.length_pos_of_mem (List.mem_filter.mpr ⟨h', rfl⟩)
      simp only [Bool.false_eq_true, if_false] at ha
      omega
  | checkClosed i h hc =>
    have := set_same LPC.holds s.leases i _ .refused h rfl
    refine ⟨this.trans hh, ha, hm, ?_⟩
    intro h' l hl
    rcases mem_set' _ _ _ _ hl with rfl | hl
    · simp
    · exact hs h' l hl
  | refuse i h =>
    have := set_down LPC.holds s.leases i _ (.done (some true)) h rfl rfl
    have hle : (if s.inflight then 1 else 0) ≤ 1 := by split <;> omega
    refine ⟨by show ((s.leases.set i (.done (some true))).filter LPC.holds).length = 0; omega, ha, hm, ?_⟩
    intro h' l hl
    rcases mem_set' _ _ _ _ hl with rfl | hl
    · simp
    · exact hs h' l hl
  | ret i h =>
    have := set_same LPC.holds s.leases i _ .leaving h rfl
    refine ⟨this.trans hh, ha, hm, ?_⟩
    intro h' l hl
    exact absurd rfl (hs h' _ (List.mem_of_getElem? h)).1
  | leave i h =>
    have := set_down LPC.holds s.leases i _ (.done none) h rfl rfl
    have hle : (if s.inflight then 1 else 0) ≤ 1 := by split <;> omega
    refine ⟨by show ((s.leases.set i (.done none)).filter LPC.holds).length = 0; omega, ha, hm, ?_⟩
    intro h' l hl
    rcases mem_set' _ _ _ _ hl with rfl | hl
    · simp
    · exact hs h' l hl
  | closeWin j h hc =>
    have := set_up CPC.active s.closers j _ .won h rfl rfl
    rw [hc] at ha
    refine ⟨hh, by show ((s.closers.set j .won).filter CPC.active).length + s.unmaps ≤ 1; simp only [Bool.false_eq_true, if_false] at ha; omega, hm, ?_⟩
    intro h' l hl
    apply hs _ l hl
    rcases h' with h' | h'
    · exact .inl h'
    · rcases mem_set' _ _ _ _ h' with h' | h'
      · cases h'
      · exact .inr h'
  | closeLose j h hc =>
    have := set_same CPC.active s.closers j _ (.done false) h rfl
    refine ⟨hh, by show ((s.closers.set j (.done false)).filter CPC.active).length + s.unmaps ≤ _; rw [this]; exact ha, hm, ?_⟩
    intro h' l hl
    apply hs _ l hl
    rcases h' with h' | h'
    · exact .inl h'
    · rcases mem_set' _ _ _ _ h' with h' | h'
      · cases h'
      · exact .inr h'
  | pollerOk j h =>
    have := set_same CPC.active s.closers j _ .pollerClosed h rfl
    refine ⟨hh, by show ((s.closers.set j .pollerClosed).filter CPC.active).length + s.unmaps ≤ _; rw [this]; exact ha, hm, ?_⟩
    intro h' l hl
    apply hs _ l hl
    rcases h' with h' | h'
    · exact .inl h'
    · rcases mem_set' _ _ _ _ h' with h' | h'
      · cases h'
      · exact .inr h'
  | pollerErr j h =>
    have := set_down CPC.active s.closers j _ (.done true) h rfl rfl
    refine ⟨hh, Nat.le_trans (by show ((s.closers.set j (.done true)).filter CPC.active).length + s.unmaps ≤ _; omega) ha, hm, ?_⟩
    intro h' l hl
    apply hs _ l hl
    rcases h' with h' | h'
    · exact .inl h'
    · rcases mem_set' _ _ _ _ h' with h' | h'
      · cases h'
      · exact .inr h'
  | idle j h hf =>
    have := set_same CPC.active s.closers j _ .unmap h rfl
    refine ⟨hh, by show ((s.closers.set j .unmap).filter CPC.active).length + s.unmaps ≤ _; rw [this]; exact ha, hm, ?_⟩
    intro _ l hl
    simp only [hf, Bool.false_eq_true, if_false] at hh
    constructor
    · rintro rfl
      have : 0 < (s.leases.filter LPC.holds).length := List.length_pos_of_mem (List.mem_filter.mpr ⟨hl, rfl⟩)
      omega
    · rintro rfl
      have : 0 < (s.leases.filter LPC.holds).length := List.length_pos_of_mem (List.mem_filter.mpr ⟨hl, rfl⟩)
      omega
  | unmap j h =>
    have := set_down CPC.active s.closers j _ (.done false) h rfl rfl
    refine ⟨hh, Nat.le_trans (by show ((s.closers.set j (.done false)).filter CPC.active).length + (s.unmaps + 1) ≤ _; omega) ha, by simp, ?_⟩
    intro _ l hl
    exact hs (.inr (List.mem_of_getElem? h)) l hl

theorem cinv_reach (s : CSys) (h : CReach s) : CInv s := by
  induction h with
  | init => constructor <;> simp
  | step _ st ih => exact cinv_step _ _ ih st

/-- C21: while any lease callback runs, the ring is mapped. -/
theorem lease_implies_mapped (s : CSys) (h : CReach s) (i : Nat) (hl : s.leases[i]? = some .inside) : s.mapped = true := by
  have hi := cinv_reach s h
  cases hm : s.mapped
  · exact absurd rfl (hi.safe (.inl hm) _ (List.mem_of_getElem? hl)).1
  · rfl

/-- C21: leases exclude each other. -/
theorem one_lease (s : CSys) (h : CReach s) (i j : Nat) (hi : s.leases[i]? = some .inside) (hj : s.leases[j]? = some .inside) : i = j := by
  have hc := (cinv_reach s h).holders
  apply Classical.byContradiction
  intro hne
  have a := set_down LPC.holds s.leases i _ .start hi rfl rfl
  have hj' : (s.leases.set i .start)[j]? = some .inside := by rw [List.getElem?_set_ne hne]; exact hj
  have b := filter_pos LPC.holds _ j _ hj' rfl
  split at hc <;> omega

/-- C21: the mapping is released at most once however many goroutines call `Close`, and it stays released. -/
theorem unmapped_once (s : CSys) (h : CReach s) : s.unmaps ≤ 1 ∧ (s.mapped = false → s.unmaps = 1) := by
  have hi := cinv_reach s h
  have := hi.active
  have hm := hi.mapped
  constructor
  · split at this <;> omega
  · intro h'; rw [h'] at hm; simp at hm; split at this <;> omega

/-- One or more steps. -/
inductive CSteps : CSys → CSys → Prop where
  | refl (s : CSys) : CSteps s s
  | tail {s t u : CSys} : CSteps s t → CStep t u → CSteps s u

/-- Lease `i` began after the reader was closed. -/
def Late (i : Nat) (s : CSys) : Prop :=
  s.closed = true ∧ ∃ l : LPC, s.leases[i]? = some l ∧ (l = .start ∨ l = .gotInflight ∨ l = .refused ∨ ∃ b : Bool, l = .done (some b))

theorem late_step (i : Nat) (s s' : CSys) (h : Late i s) (st : CStep s s') : Late i s' := by
  obtain ⟨hc, l, hl, hp⟩ := h
  have key : ∀ (j : Nat) (l' : LPC) (old : LPC), s.leases[j]? = some old → (i = j → (l' = .start ∨ l' = .gotInflight ∨ l' = .refused ∨ ∃ b : Bool, l' = .done (some b))) →
      ∃ l : LPC, (s.leases.set j l')[i]? = some l ∧ (l = .start ∨ l = .gotInflight ∨ l = .refused ∨ ∃ b : Bool, l = .done (some b)) := by
    intro j l' old ho hp'
    rw [List.getElem?_set]
    by_cases he : j = i
    · subst he
      have := (List.getElem?_eq_some_iff.mp ho).1
      exact ⟨l', by simp [this], hp' rfl⟩
    · exact ⟨l, by simp [he, hl], hp⟩
  have app : ∃ l : LPC, (s.leases ++ [.start])[i]? = some l ∧ (l = .start ∨ l = .gotInflight ∨ l = .refused ∨ ∃ b : Bool, l = .done (some b)) :=
    ⟨l, by rw [List.getElem?_append_left (List.getElem?_eq_some_iff.mp hl).1]; exact hl, hp⟩
  cases st with
  | newLease => exact ⟨hc, app⟩
  | newCloser => exact ⟨hc, l, hl, hp⟩
  | casOk j h hf => exact ⟨hc, key j _ _ h (by simp)⟩
  | casFail j h hf => exact ⟨hc, key j _ _ h (by simp)⟩
  | checkOpen j h hc' => rw [hc] at hc'; cases hc'
  | checkClosed j h hc' => exact ⟨hc, key j _ _ h (by simp)⟩
  | refuse j h => exact ⟨hc, key j _ _ h (by simp)⟩
  | ret j h =>
    refine ⟨hc, key j _ _ h ?_⟩
    rintro rfl; rw [hl] at h; cases h; simp at hp
  | leave j h =>
    refine ⟨hc, key j _ _ h ?_⟩
    rintro rfl; rw [hl] at h; cases h; simp at hp
  | closeWin j h hc' => rw [hc] at hc'; cases hc'
  | closeLose j h hc' => exact ⟨hc, l, hl, hp⟩
  | pollerOk j h => exact ⟨hc, l, hl, hp⟩
  | pollerErr j h => exact ⟨hc, l, hl, hp⟩
  | idle j h hf => exact ⟨hc, l, hl, hp⟩
  | unmap j h => exact ⟨hc, l, hl, hp⟩

/-- C21: a lease requested once Close has begun is never granted: its callback does not run and it ends with
an error, which is ErrClosed unless another lease was in flight. -/
theorem late_lease_refused (s s' : CSys) (i : Nat) (hs : s.leases[i]? = some .start) (hc : s.closed = true)
    (hr : CSteps s s') : s'.leases[i]? ≠ some .inside ∧ s'.leases[i]? ≠ some (.done none) := by
  have : Late i s' := by
    induction hr with
    | refl => exact ⟨hc, _, hs, .inl rfl⟩
    | tail _ st ih => exact late_step i _ _ ih st
  obtain ⟨_, l, hl, hp⟩ := this
  rw [hl]
  rcases hp with rfl | rfl | rfl | ⟨b, rfl⟩ <;> simp

/-- C21: a lease that finds the reader busy is refused only because another one is in flight. -/
theorem refused_concurrent (s s' : CSys) (h : CReach s) (st : CStep s s') (i : Nat)
    (ho : s.leases[i]? = some .start) (hn : s'.leases[i]? = some (.done (some false))) :
    ∃ j : Nat, ∃ l : LPC, s.leases[j]? = some l ∧ l.holds = true := by
  have hi := (cinv_reach s h).holders
  have hf : s.inflight = true := by
    have hl := (List.getElem?_eq_some_iff.mp ho).1
    cases st with
    | casFail j hj hf => exact hf
    | newLease => simp only at hn; rw [List.getElem?_append_left hl, ho] at hn; cases hn
    | casOk j hj hf => simp only at hn; rw [List.getElem?_set] at hn; split at hn <;> simp_all
    | checkOpen j hj => simp only at hn; rw [List.getElem?_set] at hn; split at hn <;> simp_all
    | checkClosed j hj => simp only at hn; rw [List.getElem?_set] at hn; split at hn <;> simp_all
    | refuse j hj => simp only at hn; rw [List.getElem?_set] at hn; split at hn <;> simp_all
    | ret j hj => simp only at hn; rw [List.getElem?_set] at hn; split at hn <;> simp_all
    | leave j hj => simp only at hn; rw [List.getElem?_set] at hn; split at hn <;> simp_all
    | _ => simp only at hn; rw [ho] at hn; cases hn
  rw [hf] at hi
  have : 0 < (s.leases.filter LPC.holds).length := by rw [hi]; decide
  obtain ⟨l, hl⟩ := List.exists_mem_of_length_pos this
  obtain ⟨hl, hp⟩ := List.mem_filter.mp hl
  obtain ⟨j, hj⟩ := List.mem_iff_getElem?.mp hl
  exact ⟨j, l, hj, hp⟩

/-- C21: a second Close changes nothing. -/
theorem second_close_noop (s s' : CSys) (j : Nat) (hc : s.closed = true) (h : s.closers[j]? = some .start) (st : CStep s s')
    (hj : s'.closers[j]? ≠ some .start) :
    s'.closers[j]? = some (.done false) ∧ s'.mapped = s.mapped ∧ s'.inflight = s.inflight ∧ s'.leases = s.leases ∧ s'.closed = true := by
  have hl := (List.getElem?_eq_some_iff.mp h).1
  cases st with
  | closeLose i hi hc' =>
    by_cases he : i = j
    · subst he; refine ⟨by simp [hl], rfl, rfl, rfl, hc⟩
    · simp only at hj; rw [List.getElem?_set_ne he] at hj; exact absurd h hj
  | closeWin i hi hc' => rw [hc] at hc'; cases hc'
  | newCloser => simp only at hj; rw [List.getElem?_append_left hl] at hj; exact absurd h hj
  | pollerOk i hi => simp only at hj; rw [List.getElem?_set_ne (by rintro rfl; rw [h] at hi; cases hi)] at hj; exact absurd h hj
  | pollerErr i hi => simp only at hj; rw [List.getElem?_set_ne (by rintro rfl; rw [h] at hi; cases hi)] at hj; exact absurd h hj
  | idle i hi hf => simp only at hj; rw [List.getElem?_set_ne (by rintro rfl; rw [h] at hi; cases hi)] at hj; exact absurd h hj
  | unmap i hi => simp only at hj; rw [List.getElem?_set_ne (by rintro rfl; rw [h] at hi; cases hi)] at hj; exact absurd h hj
  | _ => exact absurd h hj

/-- Concrete: a lease is inside while Close spins; Close only unmaps after the lease has left. -/
example : ∃ s : CSys, CReach s ∧ s.closed = true ∧ s.leases = [.inside] ∧ s.closers = [.pollerClosed] ∧ s.mapped = true :=
  ⟨_, .step (.step (.step (.step (.step (.step .init (.newLease _)) (.casOk _ 0 rfl rfl)) (.checkOpen _ 0 rfl rfl)) (.newCloser _))
    (.closeWin _ 0 rfl rfl)) (.pollerOk _ 0 rfl), rfl, rfl, rfl, rfl⟩

/-! # C55: methods that do not take a lease -/

/-- The two ways API methods touch ring memory: inside a lease, or in `AvailableBytes`
(ringbuf/raw_reader.go:215-217, ringbuf/ring.go:52-54), which checks nothing. -/
inductive Access where
  | lease (i : Nat)
  | available

/-- An access can happen now. -/
def Access.possible (s : CSys) : Access → Prop
  | .lease i => s.leases[i]? = some .inside
  | .available => True

/-- Full statement of C55: no API access ever happens while the ring is unmapped. -/
def NoUseAfterUnmap (s : CSys) : Prop := ∀ a : Access, a.possible s → s.mapped = true

/-- The lease half of C55. -/
theorem no_use_after_unmap_partial (s : CSys) (h : CReach s) (i : Nat) (hp : (Access.lease i).possible s) : s.mapped = true :=
  lease_implies_mapped s h i hp

/-- C55 is false: after `Close`, `AvailableBytes` dereferences unmapped memory. -/
theorem available_after_close : ∃ s : CSys, CReach s ∧ ¬ NoUseAfterUnmap s := by
  refine ⟨_, .step (.step (.step (.step (.step .init (.newCloser _)) (.closeWin _ 0 rfl rfl)) (.pollerOk _ 0 rfl)) (.idle _ 0 rfl rfl)) (.unmap _ 0 rfl), ?_⟩
  intro h
  have := h .available trivial
  cases this

/-- If closing the poller fails, the ring stays mapped for good: every later `Close` is a no-op (C21 says
nothing about this; recorded as a finding). -/
theorem failed_poller_close_leaks (s s' : CSys) (hm : s.mapped = true) (hc : s.closed = true)
    (hn : ∀ c ∈ s.closers, c.active = false) (hr : CSteps s s') : s'.mapped = true := by
  have : s'.mapped = true ∧ s'.closed = true ∧ ∀ c ∈ s'.closers, c.active = false := by
    induction hr with
    | refl => exact ⟨hm, hc, hn⟩
    | tail _ st ih =>
      obtain ⟨hm, hc, hn⟩ := ih
      cases st with
      | newCloser =>
        refine ⟨hm, hc, ?_⟩
        intro c hcm
        simp only [List.mem_append, List.mem_singleton] at hcm
        rcases hcm with h | rfl
        · exact hn c h
        · rfl
      | closeWin j h hc' => rw [hc] at hc'; cases hc'
      | closeLose j h hc' =>
        refine ⟨hm, hc, ?_⟩
        intro c hcm
        rcases mem_set' _ _ _ _ hcm with rfl | h
        · rfl
        · exact hn c h
      | pollerOk j h => have := hn _ (List.mem_of_getElem? h); cases this
      | pollerErr j h => have := hn _ (List.mem_of_getElem? h); cases this
      | idle j h hf => have := hn _ (List.mem_of_getElem? h); cases this
      | unmap j h => have := hn _ (List.mem_of_getElem? h); cases this
      | _ => exact ⟨hm, hc, hn⟩
  exact this.1

end Ebpf.RingReader
