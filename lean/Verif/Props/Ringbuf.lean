import Verif.Lemmas.Ringbuf
/-! # C18, C19: the ring buffer reader delivers committed records in order -/
namespace Ebpf.Ringbuf

/-- What holds at each point of the reader. -/
def PCInv (s : St) : PC → Prop
  | .idle => s.delivered = committed (s.recs.take s.rd)
  | .loaded prod => s.delivered = committed (s.recs.take s.rd) ∧
      ∃ q : Nat, s.rd ≤ q ∧ q ≤ s.recs.length ∧ prod = BitVec.ofNat 64 (s.pos q)
  | .got sl => ∃ (i : Nat) (r : Rec), s.rd = i + 1 ∧ s.pub ≤ i ∧ s.recs[i]? = some r ∧ r.status = .ready ∧
      sl = ⟨(s.pos i + 8) % s.ring.size, r.len⟩ ∧ s.delivered = committed (s.recs.take i)
  | .failed => False

structure Inv (bo : ByteOrder) (k : Nat) (s : St) : Prop where
  size : s.ring.size = 2 ^ k
  cons : s.consPos = BitVec.ofNat 64 (s.pos s.pub)
  prod : s.prodPos = BitVec.ofNat 64 (s.pos s.recs.length)
  loc : s.localCons = BitVec.ofNat 64 (s.pos s.rd)
  pubrd : s.pub ≤ s.rd
  rdlen : s.rd ≤ s.recs.length
  fit : s.pos s.recs.length ≤ s.pos s.pub + 2 ^ k
  lens : ∀ (i : Nat) (r : Rec), s.recs[i]? = some r → r.len < 2 ^ 30
  hdr : ∀ (i : Nat) (r : Rec), s.pub ≤ i → s.recs[i]? = some r → loadLen bo s.ring (s.pos i) = r.header
  pay : ∀ (i : Nat) (r : Rec), s.pub ≤ i → s.recs[i]? = some r → r.status = .ready →
    r.payload = (List.range r.len).map fun j => s.ring.data (s.pos i + 8 + j)
  notBusy : ∀ (i : Nat) (r : Rec), i < s.rd → s.recs[i]? = some r → r.status ≠ .busy
  pc : PCInv s s.pc

theorem sub_toNat (a b : Nat) (h : b ≤ a) (hd : a - b < 2 ^ 64) : (BitVec.ofNat 64 a - BitVec.ofNat 64 b).toNat = a - b := by
  rw [BitVec.toNat_sub, BitVec.toNat_ofNat, BitVec.toNat_ofNat]
  omega

theorem and_mask (p k : Nat) (hk : k < 64) : (BitVec.ofNat 64 p &&& BitVec.ofNat 64 (2 ^ k - 1)).toNat = p % 2 ^ k := by
  have h2 : 2 ^ k < 2 ^ 64 := Nat.pow_lt_pow_right (by omega) hk
  rw [BitVec.toNat_and, BitVec.toNat_ofNat, BitVec.toNat_ofNat, Nat.mod_eq_of_lt (a := 2 ^ k - 1) (by omega),
    Nat.and_two_pow_sub_one_eq_mod, Nat.mod_mod_of_dvd]
  exact Nat.pow_dvd_pow 2 (by omega)

/-- Record `i` lies between `pos i` and `pos length`. -/
theorem Inv.inside {bo : ByteOrder} {k : Nat} {s : St} (_ : Inv bo k s) (i : Nat) (r : Rec) (hi : s.pub ≤ i) (hr : s.recs[i]? = some r) :
    s.pos s.pub ≤ s.pos i ∧ s.pos i + r.space ≤ s.pos s.recs.length ∧ s.pos i + r.space = s.pos (i + 1) := by
  have hl : i < s.recs.length := (List.getElem?_eq_some_iff.mp hr).1
  refine ⟨pos_mono s _ _ hi, ?_, (pos_succ s i r hr).symm⟩
  rw [← pos_succ s i r hr]
  exact pos_mono s _ _ (by omega)

/-- First half of a read. -/
theorem Inv.first {bo : ByteOrder} {k : Nat} {s : St} (h : Inv bo k s) (hk : k < 64) (q : Nat) (h1 : s.rd ≤ q) (h2 : q ≤ s.recs.length) :
    (q = s.rd → readFirst (BitVec.ofNat 64 (2 ^ k - 1)) (BitVec.ofNat 64 (s.pos q)) s.localCons = .endOfRing) ∧
    (s.rd < q → readFirst (BitVec.ofNat 64 (2 ^ k - 1)) (BitVec.ofNat 64 (s.pos q)) s.localCons = .header (s.pos s.rd % s.ring.size)) := by
  have hp2 : 2 ^ k < 2 ^ 64 := Nat.pow_lt_pow_right (by omega) hk
  have hfit := h.fit
  have m1 := pos_mono s _ _ h.pubrd
  have m2 := pos_mono s _ _ h1
  have m3 := pos_mono s _ _ h2
  constructor
  · intro he
    subst he
    simp [readFirst, h.loc]
  · intro hlt
    have hl : s.rd < s.recs.length := by omega
    have hs := pos_succ s s.rd s.recs[s.rd] (by simp [hl])
    have m4 := pos_mono s (s.rd + 1) q hlt
    have h8 := space_ge s.recs[s.rd]
    have hd := sub_toNat (s.pos q) (s.pos s.rd) (by omega) (by omega)
    have n0 : ¬ (BitVec.ofNat 64 (s.pos q) - BitVec.ofNat 64 (s.pos s.rd) = 0) := by
      intro hc; rw [hc] at hd; simp at hd; omega
    have n1 : ¬ (BitVec.ofNat 64 (s.pos q) - BitVec.ofNat 64 (s.pos s.rd) < HDR) := by
      rw [BitVec.lt_def, hd]; have : HDR.toNat = 8 := rfl; omega
    simp only [readFirst, h.loc, n0, n1, if_false, and_mask _ k hk, h.size]

/-- Second half of a read. -/
theorem Inv.second {bo : ByteOrder} {k : Nat} {s : St} (h : Inv bo k s) (hk : k < 64) (q : Nat) (h1 : s.rd < q)
    (h2 : q ≤ s.recs.length) (r : Rec) (hr : s.recs[s.rd]? = some r) :
    readSecond s.ring.size (BitVec.ofNat 64 (2 ^ k - 1)) (BitVec.ofNat 64 (s.pos q)) s.localCons
        (loadLen bo s.ring (s.pos s.rd % s.ring.size)) =
      match r.status with
      | .busy => .retry
      | .discarded => .discarded (BitVec.ofNat 64 (s.pos q) - BitVec.ofNat 64 (s.pos (s.rd + 1))) (BitVec.ofNat 64 (s.pos (s.rd + 1)))
      | .ready => .sample ⟨(s.pos s.rd + 8) % s.ring.size, r.len⟩
          (BitVec.ofNat 64 (s.pos q) - BitVec.ofNat 64 (s.pos (s.rd + 1))) (BitVec.ofNat 64 (s.pos (s.rd + 1))) := by
  have hp2 : 2 ^ k < 2 ^ 64 := Nat.pow_lt_pow_right (by omega) hk
  have hlen := h.lens _ _ hr
  have hhdr := h.hdr _ _ h.pubrd hr
  obtain ⟨i1, i2, i3⟩ := h.inside _ _ h.pubrd hr
  have m4 := pos_mono s (s.rd + 1) q h1
  have m5 := pos_mono s _ _ h2
  have hfit := h.fit
  have hal := header_aligned r hlen
  have e1 : BitVec.ofNat 64 (s.pos s.rd) + HDR = BitVec.ofNat 64 (s.pos s.rd + 8) := by
    rw [BitVec.ofNat_add]; rfl
  have e2 : BitVec.ofNat 64 (s.pos s.rd + 8) + BitVec.ofNat 64 (dataLenAligned r.header) = BitVec.ofNat 64 (s.pos (s.rd + 1)) := by
    rw [← BitVec.ofNat_add, ← i3, ← hal, Nat.add_assoc]
  have hd := sub_toNat (s.pos q) (s.pos s.rd + 8) (by omega) (by omega)
  have n1 : ¬ (BitVec.ofNat 64 (s.pos q) - BitVec.ofNat 64 (s.pos s.rd + 8) < BitVec.ofNat 64 (dataLenAligned r.header)) := by
    rw [BitVec.lt_def, hd, BitVec.toNat_ofNat]
    have := Nat.mod_le (dataLenAligned r.header) (2 ^ 64)
    omega
  have hsz := space_ge r
  have hpos : 0 < 2 ^ k := Nat.two_pow_pos k
  have n2 : ¬ ((s.pos s.rd + 8) % 2 ^ k + r.len > 2 * 2 ^ k) := by
    have := Nat.mod_lt (s.pos s.rd + 8) hpos
    omega
  rw [loadLen_mod, hhdr]
  unfold readSecond
  simp only [header_busy r hlen, header_discard r hlen, h.loc, e1, and_mask _ k hk, header_len r hlen, h.size, n1, n2,
    if_false, e2]
  cases r.status <;> simp

/-! ## Preservation -/

theorem committed_take_succ (rs : List Rec) (i : Nat) (r : Rec) (h : rs[i]? = some r) :
    committed (rs.take (i + 1)) = committed (rs.take i) ++ (if r.status = .ready then [r.payload] else []) := by
  simp only [committed, List.take_add_one, h, List.filter_append, List.map_append]
  cases hs : r.status <;> simp [hs]

theorem pos_append (s : St) (s' : St) (i : Nat) (x : List Rec) (hb : s'.base = s.base) (hr : s'.recs = s.recs ++ x)
    (hi : i ≤ s.recs.length) : s'.pos i = s.pos i := by
  apply pos_congr _ _ _ hb
  rw [hr, List.take_append_of_le_length hi]

theorem map_space_set (l : List Rec) (i : Nat) (r r' : Rec) (h : l[i]? = some r) (hs : r'.space = r.space) :
    (l.set i r').map Rec.space = l.map Rec.space := by
  rw [List.map_set]
  apply List.ext_getElem?
  intro j
  rw [List.getElem?_set]
  by_cases hj : i = j
  · subst hj
    obtain ⟨hl, he⟩ := List.getElem?_eq_some_iff.mp h
    simp [hl, he, hs]
  · simp [hj]

theorem pos_set (s : St) (s' : St) (i j : Nat) (r r' : Rec) (hb : s'.base = s.base) (hr : s'.recs = s.recs.set i r')
    (h : s.recs[i]? = some r) (hs : r'.space = r.space) : s'.pos j = s.pos j := by
  apply pos_congr _ _ _ hb
  rw [hr, List.map_take, List.map_take, map_space_set _ _ _ _ h hs]

theorem loadLen_congr (bo : ByteOrder) (r r' : Ring) (p : Nat) (h : ∀ j : Nat, j < 4 → r'.data (p + j) = r.data (p + j)) :
    loadLen bo r' p = loadLen bo r p := by
  unfold loadLen
  rw [h 1 (by omega), h 2 (by omega), h 3 (by omega)]
  have := h 0 (by omega)
  simp only [Nat.add_zero] at this
  rw [this]

theorem inv_init (bo : ByteOrder) (k base : Nat) (mem : Nat → Byte) : Inv bo k (St.init k base mem) := by
  constructor <;> simp [St.init, St.pos, PCInv, committed]

/-- Every memory byte of record `i` outside the written record is kept. -/
theorem reserved_data (bo : ByteOrder) (s : St) (len : Nat) (pg : Byte × Byte × Byte × Byte) (q : Nat)
    (h1 : q < s.pos s.recs.length) (h2 : s.pos s.recs.length + 7 < q + s.ring.size) :
    (s.reserved bo len pg).ring.data q = s.ring.data q := by
  simp only [St.reserved]
  rw [put_ne, put_ne, put_ne, put_ne, putLen_ne] <;> (try simp only [put_size, putLen_size]) <;> omega

theorem inv_reserve (bo : ByteOrder) (k : Nat) (hk3 : 3 ≤ k) (s : St) (h : Inv bo k s) (len : Nat) (pg : Byte × Byte × Byte × Byte)
    (hlen : len < 2 ^ 30) (hfit : s.pos s.recs.length + (Rec.mk len .busy []).space - s.pos s.pub ≤ s.ring.size) :
    Inv bo k (s.reserved bo len pg) := by
  have hps : ∀ i : Nat, i ≤ s.recs.length → (s.reserved bo len pg).pos i = s.pos i := fun i hi =>
    pos_append s (s.reserved bo len pg) i _ rfl rfl hi
  have h8k : 8 ≤ 2 ^ k := Nat.pow_le_pow_right (n := 2) (by omega) hk3
  have hget : ∀ (i : Nat) (r : Rec), (s.reserved bo len pg).recs[i]? = some r →
      s.recs[i]? = some r ∨ (i = s.recs.length ∧ r = ⟨len, .busy, []⟩) := by
    intro i r hr
    simp only [St.reserved] at hr
    rcases Nat.lt_trichotomy i s.recs.length with hl | he | hg
    · rw [List.getElem?_append_left hl] at hr; exact .inl hr
    · subst he; simp at hr; exact .inr ⟨rfl, hr.symm⟩
    · rw [List.getElem?_eq_none (by simp; omega)] at hr; simp at hr
  have hm := pos_mono s _ _ (Nat.le_trans h.pubrd h.rdlen)
  have hnew : (s.reserved bo len pg).pos (s.recs.length + 1) = s.pos s.recs.length + (Rec.mk len .busy []).space := by
    rw [pos_succ (s.reserved bo len pg) s.recs.length ⟨len, .busy, []⟩ (by simp [St.reserved]), hps _ (Nat.le_refl _)]
  have hlen1 : (s.reserved bo len pg).recs.length = s.recs.length + 1 := by simp [St.reserved]
  have hsize := h.size
  have hpub : (s.reserved bo len pg).pub = s.pub := rfl
  have hrd : (s.reserved bo len pg).rd = s.rd := rfl
  have hring : (s.reserved bo len pg).ring.size = s.ring.size := by simp [St.reserved]
  have hrdlen := h.rdlen
  have hpubrd := h.pubrd
  have hsp : (Rec.mk len .busy []).space ≥ 8 := by have := space_ge (Rec.mk len .busy []); omega
  have htake : ∀ i : Nat, i ≤ s.recs.length → (s.reserved bo len pg).recs.take i = s.recs.take i := fun i hi => by
    simp only [St.reserved, List.take_append_of_le_length hi]
  refine ⟨by rw [hring, hsize], ?_, ?_, ?_, h.pubrd, ?_, ?_, ?_, ?_, ?_, ?_, ?_⟩
  · rw [hpub, hps _ (by omega)]; exact h.cons
  · rw [hlen1, hnew]; rfl
  · rw [hrd, hps _ (by omega)]; exact h.loc
  · rw [hlen1, hrd]; omega
  · rw [hlen1, hnew, hpub, hps _ (by omega)]; omega
  · intro i r hr
    rcases hget i r hr with hr | ⟨_, rfl⟩
    · exact h.lens i r hr
    · exact hlen
  · intro i r hi hr
    rcases hget i r hr with hr | ⟨rfl, rfl⟩
    · obtain ⟨a1, a2, a3⟩ := h.inside i r hi hr
      have hsg := space_ge r
      have hl : i < s.recs.length := (List.getElem?_eq_some_iff.mp hr).1
      rw [hps i (by omega), ← h.hdr i r hi hr]
      apply loadLen_congr
      intro j hj
      apply reserved_data <;> omega
    · rw [hps _ (Nat.le_refl _), ← loadLen_putLen bo s.ring (s.pos s.recs.length) (Rec.mk len .busy []).header (by omega)]
      apply loadLen_congr
      intro j hj
      simp only [St.reserved]
      rw [put_ne, put_ne, put_ne, put_ne] <;> (try simp only [put_size, putLen_size]) <;> omega
  · intro i r hi hr hst
    rcases hget i r hr with hr | ⟨_, rfl⟩
    · obtain ⟨a1, a2, a3⟩ := h.inside i r hi hr
      have hsg := space_ge r
      have hl : i < s.recs.length := (List.getElem?_eq_some_iff.mp hr).1
      rw [hps i (by omega), h.pay i r hi hr hst]
      apply List.map_congr_left
      intro j hj
      rw [List.mem_range] at hj
      symm
      apply reserved_data <;> omega
    · simp at hst
  · intro i r hi hr
    rcases hget i r hr with hr | ⟨rfl, _⟩
    · exact h.notBusy i r hi hr
    · rw [hrd] at hi; omega
  · have hpc := h.pc
    have e : (s.reserved bo len pg).pc = s.pc := rfl
    rw [e]
    cases hc : s.pc with
    | idle =>
      rw [hc] at hpc
      simp only [PCInv, hrd, htake _ hrdlen] at hpc ⊢; exact hpc
    | loaded p =>
      rw [hc] at hpc
      simp only [PCInv, hrd, htake _ hrdlen, hlen1] at hpc ⊢
      obtain ⟨a, q, b, c, d⟩ := hpc
      exact ⟨a, q, b, by omega, by rw [hps q c]; exact d⟩
    | got sl =>
      rw [hc] at hpc
      simp only [PCInv, hrd, hring, hpub] at hpc ⊢
      obtain ⟨i, r, a, b, c, d, e, f⟩ := hpc
      have hl : i < s.recs.length := (List.getElem?_eq_some_iff.mp c).1
      refine ⟨i, r, a, b, ?_, d, by rw [hps i (by omega)]; exact e, by rw [htake i (by omega)]; exact f⟩
      simp only [St.reserved]; rw [List.getElem?_append_left hl]; exact c
    | failed => rw [hc] at hpc; exact hpc

/-- Bytes of two different live records never share a ring byte. -/
theorem Inv.apart {bo : ByteOrder} {k : Nat} {s : St} (h : Inv bo k s) (i j : Nat) (r t : Rec) (hi : s.pub ≤ i) (hj : s.pub ≤ j)
    (hr : s.recs[i]? = some r) (ht : s.recs[j]? = some t) (hne : i ≠ j) (a b : Nat) (ha : a < r.space) (hb : b < t.space) :
    s.pos i + a ≠ s.pos j + b := by
  obtain ⟨_, _, i3⟩ := h.inside i r hi hr
  obtain ⟨_, _, j3⟩ := h.inside j t hj ht
  rcases Nat.lt_or_gt_of_ne hne with hl | hg
  · have := pos_mono s (i + 1) j hl; omega
  · have := pos_mono s (j + 1) i hg; omega

theorem Inv.live {bo : ByteOrder} {k : Nat} {s : St} (h : Inv bo k s) (i : Nat) (r : Rec) (hr : s.recs[i]? = some r) (hb : r.status = .busy) :
    s.rd ≤ i := by
  by_cases hlt : i < s.rd
  · exact absurd hb (h.notBusy i r hlt hr)
  · omega

theorem inv_fill (bo : ByteOrder) (k : Nat) (s : St) (h : Inv bo k s) (i j : Nat) (r : Rec) (b : Byte)
    (hr : s.recs[i]? = some r) (hb : r.status = .busy) (hj : j < r.len) :
    Inv bo k { s with ring := s.ring.put (s.pos i + 8 + j) b } := by
  have hlive := h.live i r hr hb
  have hpubrd := h.pubrd
  have hfit := h.fit
  have hsize := h.size
  have hsg := space_ge r
  obtain ⟨a1, a2, a3⟩ := h.inside i r (by omega) hr
  have hps : ∀ q : Nat, St.pos { s with ring := s.ring.put (s.pos i + 8 + j) b } q = s.pos q := fun _ => rfl
  refine ⟨h.size, h.cons, h.prod, h.loc, h.pubrd, h.rdlen, h.fit, h.lens, ?_, ?_, h.notBusy, ?_⟩
  · intro i' r' hi' hr'
    simp only [hps] at *
    have hsg' := space_ge r'
    rw [← h.hdr i' r' hi' hr']
    obtain ⟨b1, b2, b3⟩ := h.inside i' r' hi' hr'
    apply loadLen_congr
    intro c hc
    apply put_ne
    · omega
    · omega
    · by_cases he : i = i'
      · subst he; omega
      · have := h.apart i i' r r' (by omega) hi' hr hr' he (8 + j) c (by omega) (by omega); omega
  · intro i' r' hi' hr' hst
    simp only [hps] at *
    have hsg' := space_ge r'
    obtain ⟨b1, b2, b3⟩ := h.inside i' r' hi' hr'
    rw [h.pay i' r' hi' hr' hst]
    apply List.map_congr_left
    intro c hc
    rw [List.mem_range] at hc
    symm
    apply put_ne
    · omega
    · omega
    · by_cases he : i = i'
      · subst he
        rw [hr] at hr'
        cases hr'
        rw [hst] at hb; cases hb
      · have := h.apart i i' r r' (by omega) hi' hr hr' he (8 + j) (8 + c) (by omega) (by omega); omega
  · exact h.pc

theorem inv_commit (bo : ByteOrder) (k : Nat) (hk3 : 3 ≤ k) (s : St) (h : Inv bo k s) (i : Nat) (r : Rec) (discard : Bool)
    (hr : s.recs[i]? = some r) (hb : r.status = .busy) :
    Inv bo k { s with ring := s.ring.putLen bo (s.pos i) (s.finished i r discard).header, recs := s.recs.set i (s.finished i r discard) } := by
  have hlive := h.live i r hr hb
  have hpubrd := h.pubrd
  have hfit := h.fit
  have hsize := h.size
  have hsg := space_ge r
  have h8k : 8 ≤ 2 ^ k := Nat.pow_le_pow_right (n := 2) (by omega) hk3
  obtain ⟨a1, a2, a3⟩ := h.inside i r (by omega) hr
  have hil : i < s.recs.length := (List.getElem?_eq_some_iff.mp hr).1
  have hspace : (s.finished i r discard).space = r.space := rfl
  generalize hs' : ({ s with ring := s.ring.putLen bo (s.pos i) (s.finished i r discard).header, recs := s.recs.set i (s.finished i r discard) } : St) = s'
  have hrecs : s'.recs = s.recs.set i (s.finished i r discard) := by rw [← hs']
  have hps : ∀ q : Nat, s'.pos q = s.pos q := fun q => pos_set s s' i q r _ (by rw [← hs']) hrecs hr hspace
  have hlen : s'.recs.length = s.recs.length := by rw [hrecs]; simp
  have hring : s'.ring = s.ring.putLen bo (s.pos i) (s.finished i r discard).header := by rw [← hs']
  have hpub : s'.pub = s.pub := by rw [← hs']
  have hrd : s'.rd = s.rd := by rw [← hs']
  have hget : ∀ (i' : Nat) (r' : Rec), s'.recs[i']? = some r' → (i' ≠ i ∧ s.recs[i']? = some r') ∨ (i' = i ∧ r' = s.finished i r discard) := by
    intro i' r' hr'
    rw [hrecs, List.getElem?_set] at hr'
    by_cases he : i = i'
    · subst he; simp [hil] at hr'; exact .inr ⟨rfl, hr'.symm⟩
    · simp [he] at hr'; exact .inl ⟨fun e => he e.symm, hr'⟩
  have htake : ∀ q : Nat, q ≤ i → s'.recs.take q = s.recs.take q := by
    intro q hq; rw [hrecs, List.take_set_of_le hq]
  refine ⟨by rw [hring, putLen_size, hsize], ?_, ?_, ?_, by rw [hpub, hrd]; exact hpubrd, by rw [hrd, hlen]; exact h.rdlen,
    by rw [hlen, hpub, hps, hps]; exact hfit, ?_, ?_, ?_, ?_, ?_⟩
  · rw [hpub, hps, ← h.cons, ← hs']
  · rw [hlen, hps, ← h.prod, ← hs']
  · rw [hrd, hps, ← h.loc, ← hs']
  · intro i' r' hr'
    rcases hget i' r' hr' with ⟨_, hr'⟩ | ⟨rfl, rfl⟩
    · exact h.lens i' r' hr'
    · exact h.lens _ r hr
  · intro i' r' hi' hr'
    rw [hpub] at hi'
    rw [hps, hring]
    rcases hget i' r' hr' with ⟨hne, hr'⟩ | ⟨rfl, rfl⟩
    · have hsg' := space_ge r'
      obtain ⟨b1, b2, b3⟩ := h.inside i' r' hi' hr'
      rw [← h.hdr i' r' hi' hr']
      apply loadLen_congr
      intro c hc
      apply putLen_ne
      · omega
      · omega
      · have e0 := h.apart i i' r r' (by omega) hi' hr hr' (fun e => hne e.symm) 0 c (by omega) (by omega)
        have e1 := h.apart i i' r r' (by omega) hi' hr hr' (fun e => hne e.symm) 1 c (by omega) (by omega)
        have e2 := h.apart i i' r r' (by omega) hi' hr hr' (fun e => hne e.symm) 2 c (by omega) (by omega)
        have e3 := h.apart i i' r r' (by omega) hi' hr hr' (fun e => hne e.symm) 3 c (by omega) (by omega)
        omega
    · exact loadLen_putLen bo s.ring _ _ (by omega)
  · intro i' r' hi' hr' hst
    rw [hpub] at hi'
    rw [hps, hring]
    rcases hget i' r' hr' with ⟨hne, hr'⟩ | ⟨rfl, rfl⟩
    · have hsg' := space_ge r'
      obtain ⟨b1, b2, b3⟩ := h.inside i' r' hi' hr'
      rw [h.pay i' r' hi' hr' hst]
      apply List.map_congr_left
      intro c hc
      rw [List.mem_range] at hc
      symm
      apply putLen_ne
      · omega
      · omega
      · have e0 := h.apart i i' r r' (by omega) hi' hr hr' (fun e => hne e.symm) 0 (8 + c) (by omega) (by omega)
        have e1 := h.apart i i' r r' (by omega) hi' hr hr' (fun e => hne e.symm) 1 (8 + c) (by omega) (by omega)
        have e2 := h.apart i i' r r' (by omega) hi' hr hr' (fun e => hne e.symm) 2 (8 + c) (by omega) (by omega)
        have e3 := h.apart i i' r r' (by omega) hi' hr hr' (fun e => hne e.symm) 3 (8 + c) (by omega) (by omega)
        omega
    · simp only [St.finished]
      apply List.map_congr_left
      intro c hc
      rw [List.mem_range] at hc
      symm
      exact putLen_ne bo s.ring _ _ _ (by omega) (by omega) (by omega)
  · intro i' r' hi' hr'
    rw [hrd] at hi'
    rcases hget i' r' hr' with ⟨_, hr'⟩ | ⟨rfl, rfl⟩
    · exact h.notBusy i' r' hi' hr'
    · omega
  · have hpc := h.pc
    have e : s'.pc = s.pc := by rw [← hs']
    have e' : s'.delivered = s.delivered := by rw [← hs']
    have hrsz : s'.ring.size = s.ring.size := by rw [hring, putLen_size]
    rw [e]
    cases hc : s.pc with
    | idle =>
      rw [hc] at hpc
      simp only [PCInv, hrd, e', htake _ hlive] at hpc ⊢; exact hpc
    | loaded p =>
      rw [hc] at hpc
      simp only [PCInv, hrd, e', htake _ hlive, hlen, hps] at hpc ⊢; exact hpc
    | got sl =>
      rw [hc] at hpc
      simp only [PCInv, hrd, hrsz, hpub, e', hps] at hpc ⊢
      obtain ⟨m, t, a, b, c, d, e, f⟩ := hpc
      refine ⟨m, t, a, b, ?_, d, e, by rw [htake m (by omega)]; exact f⟩
      rw [hrecs, List.getElem?_set_ne (by omega)]; exact c
    | failed => rw [hc] at hpc; exact hpc

theorem inv_step (bo : ByteOrder) (k : Nat) (hk3 : 3 ≤ k) (hk : k < 64) (s s' : St) (h : Inv bo k s)
    (st : Step bo (BitVec.ofNat 64 (2 ^ k - 1)) s s') : Inv bo k s' := by
  have hpc := h.pc
  cases st with
  | reserve len pg hlen hfit => exact inv_reserve bo k hk3 s h len pg hlen hfit
  | fill i j r b hr hb hj => exact inv_fill bo k s h i j r b hr hb hj
  | commit i r d hr hb => exact inv_commit bo k hk3 s h i r d hr hb
  | load hp =>
    rw [hp] at hpc
    refine ⟨h.size, h.cons, h.prod, h.loc, h.pubrd, h.rdlen, h.fit, h.lens, h.hdr, h.pay, h.notBusy, ?_⟩
    exact ⟨hpc, s.recs.length, h.rdlen, Nat.le_refl _, h.prod⟩
  | endOfRing prod hp _ =>
    rw [hp] at hpc
    exact ⟨h.size, h.cons, h.prod, h.loc, h.pubrd, h.rdlen, h.fit, h.lens, h.hdr, h.pay, h.notBusy, hpc.1⟩
  | badFirst prod hp hf =>
    rw [hp] at hpc
    obtain ⟨_, q, h1, h2, rfl⟩ := hpc
    obtain ⟨f1, f2⟩ := h.first hk q h1 h2
    rcases Nat.eq_or_lt_of_le h1 with he | hl
    · rw [f1 he.symm] at hf; cases hf
    · rw [f2 hl] at hf; cases hf
  | badSecond prod start hp hf hg =>
    rw [hp] at hpc
    obtain ⟨_, q, h1, h2, rfl⟩ := hpc
    obtain ⟨f1, f2⟩ := h.first hk q h1 h2
    rcases Nat.eq_or_lt_of_le h1 with he | hl
    · rw [f1 he.symm] at hf; cases hf
    · rw [f2 hl] at hf; cases hf
      have hil : s.rd < s.recs.length := by omega
      have hsec := h.second hk q hl h2 s.recs[s.rd] (by simp [hil])
      rw [hsec] at hg
      cases hst : s.recs[s.rd].status <;> simp [hst] at hg
  | discarded prod start rem lc hp hf hg =>
    rw [hp] at hpc
    obtain ⟨hdel, q, h1, h2, rfl⟩ := hpc
    obtain ⟨f1, f2⟩ := h.first hk q h1 h2
    rcases Nat.eq_or_lt_of_le h1 with he | hl
    · rw [f1 he.symm] at hf; cases hf
    · rw [f2 hl] at hf; cases hf
      have hil : s.rd < s.recs.length := by omega
      have hr : s.recs[s.rd]? = some s.recs[s.rd] := by simp [hil]
      have hsec := h.second hk q hl h2 s.recs[s.rd] hr
      rw [hsec] at hg
      cases hst : s.recs[s.rd].status <;> simp [hst] at hg
      obtain ⟨_, hlc⟩ := hg
      have hpubrd := h.pubrd
      refine ⟨h.size, h.cons, h.prod, hlc.symm, by show s.pub ≤ s.rd + 1; omega, hil, h.fit, h.lens, h.hdr, h.pay, ?_, ?_⟩
      · intro i r hi hr'
        simp only at hi hr'
        by_cases he : i = s.rd
        · subst he; rw [hr] at hr'; cases hr'; rw [hst]; simp
        · exact h.notBusy i r (by omega) hr'
      · simp only [PCInv]
        rw [committed_take_succ _ _ _ hr, hst]; simp [hdel]
  | sample prod start sl rem lc hp hf hg =>
    rw [hp] at hpc
    obtain ⟨hdel, q, h1, h2, rfl⟩ := hpc
    obtain ⟨f1, f2⟩ := h.first hk q h1 h2
    rcases Nat.eq_or_lt_of_le h1 with he | hl
    · rw [f1 he.symm] at hf; cases hf
    · rw [f2 hl] at hf; cases hf
      have hil : s.rd < s.recs.length := by omega
      have hr : s.recs[s.rd]? = some s.recs[s.rd] := by simp [hil]
      have hsec := h.second hk q hl h2 s.recs[s.rd] hr
      rw [hsec] at hg
      cases hst : s.recs[s.rd].status <;> simp [hst] at hg
      obtain ⟨hsl, _, hlc⟩ := hg
      have hpubrd := h.pubrd
      refine ⟨h.size, h.cons, h.prod, hlc.symm, by show s.pub ≤ s.rd + 1; omega, hil, h.fit, h.lens, h.hdr, h.pay, ?_, ?_⟩
      · intro i r hi hr'
        simp only at hi hr'
        by_cases he : i = s.rd
        · subst he; rw [hr] at hr'; cases hr'; rw [hst]; simp
        · exact h.notBusy i r (by omega) hr'
      · exact ⟨s.rd, _, rfl, hpubrd, hr, hst, hsl.symm, hdel⟩
  | copy sl hp =>
    rw [hp] at hpc
    obtain ⟨i, r, hrd, hpi, hr, hst, hsl, hdel⟩ := hpc
    refine ⟨h.size, h.cons, h.prod, h.loc, h.pubrd, h.rdlen, h.fit, h.lens, h.hdr, h.pay, h.notBusy, ?_⟩
    simp only [PCInv]
    rw [hrd, committed_take_succ _ _ _ hr, hst, hdel, if_pos rfl, h.pay i r hpi hr hst, hsl]
    congr 2
    simp only [Slice.bytes]
    apply List.map_congr_left
    intro j _
    exact data_mod s.ring _ _
  | publish hp =>
    rw [hp] at hpc
    have m := pos_mono s _ _ h.pubrd
    have hfit := h.fit
    have hpubrd := h.pubrd
    have hps : ∀ q : Nat, St.pos { s with consPos := s.localCons, pub := s.rd } q = s.pos q := fun _ => rfl
    refine ⟨h.size, h.loc, h.prod, h.loc, Nat.le_refl _, h.rdlen, ?_, h.lens, ?_, ?_, h.notBusy, ?_⟩
    · simp only [hps]; omega
    · intro i r hi hr; exact h.hdr i r (by simp only at hi; omega) hr
    · intro i r hi hr; exact h.pay i r (by simp only at hi; omega) hr
    · rw [hp]; exact hpc

theorem inv_reach (bo : ByteOrder) (k base : Nat) (mem : Nat → Byte) (hk3 : 3 ≤ k) (hk : k < 64) (s : St)
    (h : Reach bo k base mem s) : Inv bo k s := by
  induction h with
  | init => exact inv_init bo k base mem
  | step _ st ih => exact inv_step bo k hk3 hk _ _ ih st

/-! ## The theorems -/

/-- C18: between reads, what has been delivered is exactly the payload (as of commit time) of every committed
record among the first `rd` ever reserved, in reservation order: none lost, duplicated, reordered or altered,
no discarded record, whatever the producers and the reader interleaved. -/
theorem delivered_in_order (bo : ByteOrder) (k base : Nat) (mem : Nat → Byte) (hk3 : 3 ≤ k) (hk : k < 64) (s : St)
    (h : Reach bo k base mem s) (hpc : s.pc = .idle) : s.delivered = committed (s.recs.take s.rd) := by
  have := (inv_reach bo k base mem hk3 hk s h).pc
  rw [hpc] at this; exact this

/-- C18: the reader never reports a corrupt ring and never slices out of bounds. -/
theorem never_fails (bo : ByteOrder) (k base : Nat) (mem : Nat → Byte) (hk3 : 3 ≤ k) (hk : k < 64) (s : St)
    (h : Reach bo k base mem s) : s.pc ≠ .failed := by
  intro hpc
  have := (inv_reach bo k base mem hk3 hk s h).pc
  rw [hpc] at this; exact this

/-- C18: an uncommitted record is never passed over. -/
theorem never_skips_busy (bo : ByteOrder) (k base : Nat) (mem : Nat → Byte) (hk3 : 3 ≤ k) (hk : k < 64) (s : St)
    (h : Reach bo k base mem s) (i : Nat) (r : Rec) (hi : i < s.rd) (hr : s.recs[i]? = some r) : r.status ≠ .busy :=
  (inv_reach bo k base mem hk3 hk s h).notBusy i r hi hr

/-- C18: "end of ring" is only reported when every record reserved by the time of the producer-position load
has been read. -/
theorem end_of_ring_complete (bo : ByteOrder) (k base : Nat) (mem : Nat → Byte) (hk3 : 3 ≤ k) (hk : k < 64) (s : St)
    (h : Reach bo k base mem s) (hpc : s.pc = .idle)
    (he : readFirst (BitVec.ofNat 64 (2 ^ k - 1)) s.prodPos s.localCons = .endOfRing) :
    s.delivered = committed s.recs := by
  have hi := inv_reach bo k base mem hk3 hk s h
  rw [delivered_in_order bo k base mem hk3 hk s h hpc]
  obtain ⟨_, f2⟩ := hi.first hk s.recs.length hi.rdlen (Nat.le_refl _)
  rw [hi.prod] at he
  have : s.rd = s.recs.length := by
    rcases Nat.eq_or_lt_of_le hi.rdlen with e | hl
    · exact e
    · rw [f2 hl] at he; cases he
  rw [this, List.take_length]

/-- C18 (progress): if every reserved record is committed and some is unread, a read returns a sample or a
discarded record instead of waiting. -/
theorem read_progress (bo : ByteOrder) (k base : Nat) (mem : Nat → Byte) (hk3 : 3 ≤ k) (hk : k < 64) (s : St)
    (h : Reach bo k base mem s) (r : Rec) (hr : s.recs[s.rd]? = some r) (hb : r.status ≠ .busy) :
    ∃ start : Nat, readFirst (BitVec.ofNat 64 (2 ^ k - 1)) s.prodPos s.localCons = .header start ∧
      ∃ rem lc : BitVec 64,
        (r.status = .ready ∧ ∃ sl : Slice, readSecond s.ring.size (BitVec.ofNat 64 (2 ^ k - 1)) s.prodPos s.localCons
            (loadLen bo s.ring start) = .sample sl rem lc ∧ sl.bytes s.ring = r.payload) ∨
        (r.status = .discarded ∧ readSecond s.ring.size (BitVec.ofNat 64 (2 ^ k - 1)) s.prodPos s.localCons
            (loadLen bo s.ring start) = .discarded rem lc) := by
  have hi := inv_reach bo k base mem hk3 hk s h
  have hl : s.rd < s.recs.length := (List.getElem?_eq_some_iff.mp hr).1
  obtain ⟨_, f2⟩ := hi.first hk s.recs.length hi.rdlen (Nat.le_refl _)
  have hs := hi.second hk s.recs.length hl (Nat.le_refl _) r hr
  rw [← hi.prod] at f2 hs
  refine ⟨_, f2 hl, s.prodPos - BitVec.ofNat 64 (s.pos (s.rd + 1)), BitVec.ofNat 64 (s.pos (s.rd + 1)), ?_⟩
  cases hst : r.status with
  | busy => exact absurd hst hb
  | ready =>
    rw [hst] at hs
    refine .inl ⟨rfl, _, hs, ?_⟩
    rw [hi.pay s.rd r hi.pubrd hr hst]
    simp only [Slice.bytes]
    apply List.map_congr_left
    intro j _
    exact data_mod s.ring _ _
  | discarded => rw [hst] at hs; exact .inr ⟨rfl, hs⟩

/-- C18/C19: a sample handed out stays intact until its space is released, however far the reader and the
producers have gone on since: the slice of record `i` still shows its payload while `pub ≤ i`. -/
theorem outstanding_samples_intact (bo : ByteOrder) (k base : Nat) (mem : Nat → Byte) (hk3 : 3 ≤ k) (hk : k < 64) (s : St)
    (h : Reach bo k base mem s) (i : Nat) (r : Rec) (hi : s.pub ≤ i) (hr : s.recs[i]? = some r) (hst : r.status = .ready) :
    Slice.bytes ⟨(s.pos i + 8) % s.ring.size, r.len⟩ s.ring = r.payload := by
  rw [(inv_reach bo k base mem hk3 hk s h).pay i r hi hr hst]
  simp only [Slice.bytes]
  apply List.map_congr_left
  intro j _
  exact data_mod s.ring _ _

/-- C19: the consumer position always is the start of a record, never beyond what was read, and what
was read never is beyond the producer position. -/
theorem consumer_position (bo : ByteOrder) (k base : Nat) (mem : Nat → Byte) (hk3 : 3 ≤ k) (hk : k < 64) (s : St)
    (h : Reach bo k base mem s) :
    s.consPos = BitVec.ofNat 64 (s.pos s.pub) ∧ s.pub ≤ s.rd ∧ s.rd ≤ s.recs.length ∧
      s.prodPos = BitVec.ofNat 64 (s.pos s.recs.length) ∧
      (s.prodPos - s.consPos).toNat = s.pos s.recs.length - s.pos s.pub ∧ (s.prodPos - s.consPos).toNat ≤ 2 ^ k := by
  have hi := inv_reach bo k base mem hk3 hk s h
  have hp2 : 2 ^ k < 2 ^ 64 := Nat.pow_lt_pow_right (by omega) hk
  have m := pos_mono s _ _ (Nat.le_trans hi.pubrd hi.rdlen)
  have hfit := hi.fit
  have := sub_toNat (s.pos s.recs.length) (s.pos s.pub) m (by omega)
  refine ⟨hi.cons, hi.pubrd, hi.rdlen, hi.prod, ?_, ?_⟩ <;> rw [hi.prod, hi.cons, this]
  omega

/-- C19: no step moves the consumer position backwards, and only `commit` moves it. -/
theorem consumer_monotone (bo : ByteOrder) (k base : Nat) (mem : Nat → Byte) (hk3 : 3 ≤ k) (hk : k < 64) (s s' : St)
    (h : Reach bo k base mem s)
    (st : Step bo (BitVec.ofNat 64 (2 ^ k - 1)) s s') :
    s.pub ≤ s'.pub ∧ s.pos s.pub ≤ s'.pos s'.pub ∧ (s'.consPos ≠ s.consPos → s.pc = .idle ∧ s'.consPos = s.localCons) := by
  have hi := inv_reach bo k base mem hk3 hk s h
  have m := pos_mono s _ _ hi.pubrd
  have hpubrd := hi.pubrd
  cases st with
  | reserve len pg hlen hfit =>
    have e := pos_append s (s.reserved bo len pg) s.pub _ rfl rfl (Nat.le_trans hi.pubrd hi.rdlen)
    exact ⟨Nat.le_refl _, Nat.le_of_eq e.symm, fun hc => absurd rfl hc⟩
  | commit i r d hr hb =>
    refine ⟨Nat.le_refl _, Nat.le_of_eq ?_, fun hc => absurd rfl hc⟩
    exact (pos_set s { s with ring := s.ring.putLen bo (s.pos i) (s.finished i r d).header, recs := s.recs.set i (s.finished i r d) }
      i s.pub r _ rfl rfl hr rfl).symm
  | publish hp => exact ⟨hpubrd, m, fun _ => ⟨hp, rfl⟩⟩
  | _ => exact ⟨Nat.le_refl _, Nat.le_refl _, fun hc => absurd rfl hc⟩

/-! ## A concrete run -/

/-- Reserve two records, commit the second, then the first, read both. -/
example : ∃ s : St, Reach .little 6 40 (fun _ => 0) s ∧ s.pc = .idle ∧ s.delivered = [[7#8, 0#8], []] ∧ s.rd = 2 := by
  have h0 : Reach .little 6 40 (fun _ => 0) (St.init 6 40 (fun _ => 0)) := .init
  have h1 := Reach.step h0 (.reserve _ 2 (0, 0, 0, 0) (by decide) (by decide))
  have h2 := Reach.step h1 (.reserve _ 0 (0, 0, 0, 0) (by decide) (by decide))
  have h3 := Reach.step h2 (.commit _ 1 ⟨0, .busy, []⟩ false (by decide) rfl)
  have h4 := Reach.step h3 (.fill _ 0 0 ⟨2, .busy, []⟩ 7#8 (by decide) rfl (by decide))
  have h5 := Reach.step h4 (.commit _ 0 ⟨2, .busy, []⟩ false (by decide) rfl)
  have h6 := Reach.step h5 (.load _ rfl)
  have h7 := Reach.step h6 (.sample _ _ 40 ⟨48, 2⟩ 8 56 rfl (by decide) (by decide +kernel))
  have h8 := Reach.step h7 (.copy _ _ rfl)
  have h9 := Reach.step h8 (.publish _ rfl)
  have h10 := Reach.step h9 (.load _ rfl)
  have h11 := Reach.step h10 (.sample _ _ 56 ⟨0, 0⟩ 0 64 rfl (by decide) (by decide +kernel))
  have h12 := Reach.step h11 (.copy _ _ rfl)
  exact ⟨_, h12, rfl, by decide +kernel, rfl⟩

end Ebpf.Ringbuf
