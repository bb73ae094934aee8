import Verif.Spec.Perf
import Verif.Lemmas.Bits
/-! # C22: the perf ring reader -/
namespace Ebpf.Perf

theorem window_length (cap : Nat) (ring : Nat → Byte) (p n : Nat) : (window cap ring p n).length = n := by simp [window]

theorem window_append (cap : Nat) (ring : Nat → Byte) (p m n : Nat) :
    window cap ring p (m + n) = window cap ring p m ++ window cap ring (p + m) n := by
  simp [window, List.range_add, Function.comp_def, Nat.add_assoc]

theorem window_take (cap : Nat) (ring : Nat → Byte) (p m n : Nat) (h : m ≤ n) :
    (window cap ring p n).take m = window cap ring p m := by
  obtain ⟨d, rfl⟩ := Nat.exists_eq_add_of_le h
  rw [window_append, List.take_left' (window_length ..)]

theorem window_drop (cap : Nat) (ring : Nat → Byte) (p m n : Nat) (h : m ≤ n) :
    (window cap ring p n).drop m = window cap ring (p + m) (n - m) := by
  obtain ⟨d, rfl⟩ := Nat.exists_eq_add_of_le h
  rw [window_append, List.drop_left' (window_length ..), Nat.add_sub_cancel_left]

theorem At.pow_lt {c : Cursor} {k p l : Nat} (h : At c k p l) : 2 ^ k < 2 ^ 63 := Nat.pow_lt_pow_right (by omega) h.small

theorem start_eq {c : Cursor} {k p l : Nat} (h : At c k p l) : (c.pos &&& c.mask).toNat = p % 2 ^ k := by
  have h2 := h.pow_lt
  rw [Cursor.mask, h.cap, h.pos, BitVec.toNat_and, BitVec.toNat_ofNat, BitVec.toNat_ofNat, Nat.mod_eq_of_lt (a := 2 ^ k - 1) (by omega),
    Nat.and_two_pow_sub_one_eq_mod, Nat.mod_mod_of_dvd]
  exact Nat.pow_dvd_pow 2 (by have := h.small; omega)

theorem remain_eq {c : Cursor} {k p l : Nat} (h : At c k p l) : (c.limit - c.pos).toInt = ((l - p : Nat) : Int) := by
  have h2 := h.pow_lt
  have h3 := h.le
  have h4 := h.fits
  have e : (c.limit - c.pos).toNat = l - p := by
    rw [h.limit, h.pos, BitVec.toNat_sub, BitVec.toNat_ofNat, BitVec.toNat_ofNat]; omega
  rw [BitVec.toInt_eq_toNat_of_lt (by rw [e]; omega), e]

theorem ofNat_eq_iff (a b : Nat) (h : a ≤ b) (hd : b - a < 2 ^ 64) : BitVec.ofNat 64 a = BitVec.ofNat 64 b ↔ a = b := by
  constructor
  · intro he
    have := congrArg BitVec.toNat he
    rw [BitVec.toNat_ofNat, BitVec.toNat_ofNat] at this
    omega
  · rintro rfl; rfl

/-- One `Read`: some prefix of the unread bytes, at least one if there is one, and EOF exactly at the end. -/
theorem read_spec {c : Cursor} {k p l : Nat} (h : At c k p l) (n : Nat) :
    ∃ m : Nat, m ≤ n ∧ m ≤ l - p ∧ (0 < n → p < l → 0 < m) ∧ (m < n → p + m = l ∨ (p + m) % 2 ^ k = 0) ∧
      c.read n = some (window c.cap c.ring p m, decide (p + m = l), { c with pos := BitVec.ofNat 64 (p + m) }) ∧
      At { c with pos := BitVec.ofNat 64 (p + m) } k (p + m) l := by
  have h2 := h.pow_lt
  have hle := h.le
  have hfits := h.fits
  have hpos : 0 < 2 ^ k := Nat.two_pow_pos k
  have hml := Nat.mod_lt p hpos
  refine ⟨min (min n (2 ^ k - p % 2 ^ k)) (l - p), by omega, by omega, by omega, ?_, ?_, ?_⟩
  · intro hlt
    by_cases hx : l - p ≤ 2 ^ k - p % 2 ^ k
    · left; omega
    · right
      have e1 : min (min n (2 ^ k - p % 2 ^ k)) (l - p) = 2 ^ k - p % 2 ^ k := by omega
      rw [e1]
      have e2 := Nat.div_add_mod p (2 ^ k)
      have : p + (2 ^ k - p % 2 ^ k) = 2 ^ k * (p / 2 ^ k + 1) := by rw [Nat.mul_add]; omega
      rw [this, Nat.mul_mod_right]
  · have hn1 : (if n > c.cap - (c.pos &&& c.mask).toNat then c.cap - (c.pos &&& c.mask).toNat else n) = min n (2 ^ k - p % 2 ^ k) := by
      rw [start_eq h, h.cap]; split <;> omega
    have hn2 : (if ((min n (2 ^ k - p % 2 ^ k) : Nat) : Int) > ((l - p : Nat) : Int) then (((l - p : Nat) : Int)).toNat else min n (2 ^ k - p % 2 ^ k))
        = min (min n (2 ^ k - p % 2 ^ k)) (l - p) := by split <;> omega
    unfold Cursor.read
    simp only [hn1, remain_eq h, hn2]
    rw [if_neg (by omega)]
    have hpe : c.pos + BitVec.ofNat 64 (min (min n (2 ^ k - p % 2 ^ k)) (l - p)) = BitVec.ofNat 64 (p + min (min n (2 ^ k - p % 2 ^ k)) (l - p)) := by
      rw [h.pos, ← BitVec.ofNat_add]
    rw [hpe, start_eq h]
    refine congrArg some (Prod.ext ?_ (Prod.ext ?_ rfl))
    · simp only [window, h.cap]
      apply List.map_congr_left
      intro j hj
      rw [List.mem_range] at hj
      congr 1
      rw [Nat.add_mod, Nat.mod_eq_of_lt (a := j) (by omega), Nat.mod_eq_of_lt (a := p % 2 ^ k + j) (by omega)]
    · simp only [h.limit]
      rw [Bool.eq_iff_iff]
      rw [beq_iff_eq, decide_eq_true_iff, ofNat_eq_iff _ _ (by omega) (by omega)]
  · exact ⟨h.cap, h.small, rfl, h.limit, by omega, by omega⟩

theorem readFull_spec (fuel : Nat) (c : Cursor) (k p l n : Nat) (acc : Bytes) (h : At c k p l) (hf : n < fuel) :
    (n ≤ l - p → Cursor.readFull fuel c n acc =
      some (.ok (acc ++ window c.cap c.ring p n), { c with pos := BitVec.ofNat 64 (p + n) })) ∧
    (l - p < n → Cursor.readFull fuel c n acc =
      some (.error (if acc = [] ∧ l = p then .eof else .unexpectedEOF), { c with pos := BitVec.ofNat 64 l })) := by
  induction fuel generalizing c p n acc with
  | zero => omega
  | succ fuel ih =>
    have hle := h.le
    by_cases hn : n = 0
    · subst hn
      refine ⟨fun _ => ?_, fun hc => by omega⟩
      simp only [Cursor.readFull, if_true, window, List.range_zero, List.map_nil, List.append_nil, Nat.add_zero, ← h.pos]
    · obtain ⟨m, hmn, hml, hpos, hend, hread, hat⟩ := read_spec h n
      simp only [Cursor.readFull, hn, if_false, hread, window_length]
      by_cases hm : m = n
      · subst hm
        refine ⟨fun _ => by simp, fun hc => by omega⟩
      · simp only [hm, if_false]
        by_cases he : p + m = l
        · refine ⟨fun hc => by omega, fun _ => ?_⟩
          simp only [he, decide_true, if_true]
          congr 3
          · congr 1
            by_cases hz : m = 0
            · subst hz; simp [window, show l = p by omega]
            · have : window c.cap c.ring p m ≠ [] := by
                intro hw; have := congrArg List.length hw; rw [window_length] at this; simp at this; exact hz this
              simp [this]; intro _; omega
        · have hp0 : 0 < m := hpos (by omega) (by omega)
          simp only [he, decide_false, Bool.false_eq_true, if_false]
          obtain ⟨i1, i2⟩ := ih { c with pos := BitVec.ofNat 64 (p + m) } (p + m) (n - m) (acc ++ window c.cap c.ring p m) hat (by omega)
          refine ⟨fun hc => ?_, fun hc => ?_⟩
          · rw [i1 (by omega)]
            simp only [List.append_assoc, ← window_append]
            rw [show m + (n - m) = n by omega, show p + m + (n - m) = p + n by omega]
          · rw [i2 (by omega)]
            have n1 : ¬ (acc ++ window c.cap c.ring p m = [] ∧ l = p + m) := by
              rintro ⟨_, h2⟩; omega
            have n2 : ¬ (acc = [] ∧ l = p) := by rintro ⟨_, h2⟩; omega
            rw [if_neg n1, if_neg n2]

/-- C22: filling a buffer of `n` bytes takes exactly the next `n` unread bytes, across the wrap of the data
area and of the 64 bit positions, and advances by `n`; -/
theorem full_ok {c : Cursor} {k p l : Nat} (h : At c k p l) (n : Nat) (hn : n ≤ l - p) :
    ∃ c' : Cursor, c.full n = some (.ok ((unread c p l).take n), c') ∧ At c' k (p + n) l ∧ unread c' (p + n) l = (unread c p l).drop n := by
  refine ⟨{ c with pos := BitVec.ofNat 64 (p + n) }, ?_, ⟨h.cap, h.small, rfl, h.limit, by have := h.le; omega, by have := h.fits; omega⟩, ?_⟩
  · rw [Cursor.full, (readFull_spec (n + 1) c k p l n [] h (by omega)).1 hn, unread, window_take _ _ _ _ _ hn]
    simp
  · simp only [unread]
    rw [window_drop _ _ _ _ _ hn]
    congr 1; omega

/-- C22: if fewer than `n` bytes are unread, an error is returned (io.EOF exactly if there were none) and nothing
beyond the limit is read. -/
theorem full_short {c : Cursor} {k p l : Nat} (h : At c k p l) (n : Nat) (hn : l - p < n) :
    ∃ c' : Cursor, c.full n = some (.error (if p = l then .eof else .unexpectedEOF), c') ∧ At c' k l l := by
  refine ⟨{ c with pos := BitVec.ofNat 64 l }, ?_, ⟨h.cap, h.small, rfl, h.limit, Nat.le_refl _, Nat.le_add_right _ _⟩⟩
  rw [Cursor.full, (readFull_spec (n + 1) c k p l n [] h (by omega)).2 hn]
  simp [eq_comm]

/-! ## Records -/

theorem get64_put64 (bo : ByteOrder) (x : BitVec 64) :
    ∃ a b c d e f g h, bo.put64 x = [a, b, c, d, e, f, g, h] ∧ bo.get64 a b c d e f g h = x := by
  cases bo
  · obtain ⟨a, b, c, d, h1, h2⟩ := get32_put32 .little (x.extractLsb' 0 32)
    obtain ⟨e, f, g, h, h3, h4⟩ := get32_put32 .little (x.extractLsb' 32 32)
    refine ⟨a, b, c, d, e, f, g, h, by simp only [ByteOrder.put64, h1, h3]; rfl, ?_⟩
    simp only [ByteOrder.get64, h2, h4]
    ext i hi; simp; grind
  · obtain ⟨a, b, c, d, h1, h2⟩ := get32_put32 .big (x.extractLsb' 32 32)
    obtain ⟨e, f, g, h, h3, h4⟩ := get32_put32 .big (x.extractLsb' 0 32)
    refine ⟨a, b, c, d, e, f, g, h, by simp only [ByteOrder.put64, h1, h3]; rfl, ?_⟩
    simp only [ByteOrder.get64, h2, h4]
    ext i hi; simp; grind

theorem unread_length (c : Cursor) (p l : Nat) : (unread c p l).length = l - p := window_length ..

/-- A buffer of the length of a known prefix receives that prefix. -/
theorem full_prefix {c : Cursor} {k p l : Nat} (h : At c k p l) (a b : Bytes) (hu : unread c p l = a ++ b) :
    ∃ c' : Cursor, c.full a.length = some (.ok a, c') ∧ At c' k (p + a.length) l ∧ unread c' (p + a.length) l = b := by
  have hl : a.length ≤ l - p := by rw [← unread_length c p l, hu]; simp
  obtain ⟨c', h1, h2, h3⟩ := full_ok h a.length hl
  rw [hu] at h1 h3
  simp at h1 h3
  exact ⟨c', h1, h2, h3⟩

theorem header_read (bo : ByteOrder) (ty : BitVec 32) (m s : BitVec 16) :
    (bo.put32 ty ++ bo.put16 m ++ bo.put16 s).length = 8 ∧ ∃ r, bo.get32l (bo.put32 ty ++ bo.put16 m ++ bo.put16 s) = some (ty, r) := by
  obtain ⟨a, b, c, d, h1, h2⟩ := get32_put32 bo ty
  refine ⟨by simp [put32_length, put16_length], ?_⟩
  simp [h1, ByteOrder.get32l, h2]

/-- C22: a complete record at the read position is returned exactly and skipped exactly. -/
theorem readRecord_ok (bo : ByteOrder) {c : Cursor} {k p l : Nat} (h : At c k p l) (r : KRec) (hr : r.ok) (b : Bytes)
    (hu : unread c p l = r.encode bo ++ b) :
    ∃ c' : Cursor, readRecord bo c = some (.ok r.toRecord, c') ∧ At c' k (p + (r.encode bo).length) l ∧
      unread c' (p + (r.encode bo).length) l = b := by
  cases r with
  | sample m s raw =>
    simp only [KRec.encode] at hu
    obtain ⟨hl, r, hg⟩ := header_read bo 9#32 m s
    obtain ⟨c1, f1, a1, u1⟩ := full_prefix h (bo.put32 9#32 ++ bo.put16 m ++ bo.put16 s) (bo.put32 (BitVec.ofNat 32 raw.length) ++ (raw ++ b))
      (by rw [hu]; simp only [List.append_assoc])
    obtain ⟨c2, f2, a2, u2⟩ := full_prefix a1 _ _ u1
    obtain ⟨c3, f3, a3, u3⟩ := full_prefix a2 _ _ u2
    rw [hl] at f1
    rw [put32_length] at f2
    obtain ⟨w, x, y, z, h1, h2⟩ := get32_put32 bo (BitVec.ofNat 32 raw.length)
    have hg2 : bo.get32l (bo.put32 (BitVec.ofNat 32 raw.length)) = some (BitVec.ofNat 32 raw.length, []) := by
      rw [h1]; simp [ByteOrder.get32l, h2]
    have hsz : (BitVec.ofNat 32 raw.length).toNat = raw.length := by
      rw [BitVec.toNat_ofNat]; exact Nat.mod_eq_of_lt hr
    refine ⟨c3, ?_, ?_, ?_⟩
    · simp only [readRecord, f1, hg, readRawSample, f2, hg2, hsz, f3]
      rfl
    · have e : p + ((KRec.sample m s raw).encode bo).length = p + (bo.put32 9#32 ++ bo.put16 m ++ bo.put16 s).length +
          (bo.put32 (BitVec.ofNat 32 raw.length)).length + raw.length := by
        simp [KRec.encode]; omega
      rw [e]; exact a3
    · have e : p + ((KRec.sample m s raw).encode bo).length = p + (bo.put32 9#32 ++ bo.put16 m ++ bo.put16 s).length +
          (bo.put32 (BitVec.ofNat 32 raw.length)).length + raw.length := by
        simp [KRec.encode]; omega
      rw [e]; exact u3
  | lost m s id n =>
    simp only [KRec.encode] at hu
    obtain ⟨hl, r, hg⟩ := header_read bo 2#32 m s
    obtain ⟨c1, f1, a1, u1⟩ := full_prefix h (bo.put32 2#32 ++ bo.put16 m ++ bo.put16 s) (bo.put64 id ++ bo.put64 n ++ b)
      (by rw [hu]; simp only [List.append_assoc])
    obtain ⟨c2, f2, a2, u2⟩ := full_prefix a1 (bo.put64 id ++ bo.put64 n) b u1
    rw [hl] at f1
    have hl2 : (bo.put64 id ++ bo.put64 n).length = 16 := by simp [put64_length]
    rw [hl2] at f2
    obtain ⟨x1, x2, x3, x4, x5, x6, x7, x8, h1, h2⟩ := get64_put64 bo id
    obtain ⟨y1, y2, y3, y4, y5, y6, y7, y8, h3, h4⟩ := get64_put64 bo n
    have e : p + ((KRec.lost m s id n).encode bo).length = p + (bo.put32 2#32 ++ bo.put16 m ++ bo.put16 s).length +
          (bo.put64 id ++ bo.put64 n).length := by
      simp [KRec.encode]; omega
    refine ⟨c2, ?_, by rw [e]; exact a2, by rw [e]; exact u2⟩
    simp only [readRecord, f1, hg, readLostRecords, f2, h1, h3]
    simp [PERF_RECORD_LOST, h4, KRec.toRecord]

theorem readRecord_empty (bo : ByteOrder) {c : Cursor} {k p : Nat} (h : At c k p p) :
    ∃ c' : Cursor, readRecord bo c = some (.error .eor, c') ∧ At c' k p p := by
  obtain ⟨c', h1, h2⟩ := full_short h 8 (by omega)
  rw [if_pos rfl] at h1
  exact ⟨c', by simp only [readRecord, h1], h2⟩

/-- C22: a ring holding whole records yields exactly these records, in order, then "end of ring", with the
position at the end: none lost, duplicated, merged or torn. (`overwritable = false`: the ring between
the last published tail and the loaded head; the kernel only ever publishes whole records.) -/
theorem readAll_records (bo : ByteOrder) (ow : Bool) (rs : List KRec) (hok : ∀ r ∈ rs, r.ok) (c : Cursor) (k p l : Nat) (h : At c k p l)
    (hu : unread c p l = (rs.map (KRec.encode bo)).flatten) (fuel : Nat) (hf : rs.length < fuel) :
    ∃ c' : Cursor, readAll bo ow fuel c = some (rs.map KRec.toRecord, .eor, c') ∧ At c' k l l := by
  induction rs generalizing c p fuel with
  | nil =>
    have hl := unread_length c p l
    rw [hu] at hl
    simp at hl
    have hle := h.le
    have : p = l := by omega
    subst this
    obtain ⟨c', h1, h2⟩ := readRecord_empty bo h
    cases fuel with
    | zero => omega
    | succ fuel => exact ⟨c', by simp [readAll, readRecordFromRing, h1], h2⟩
  | cons r rs ih =>
    cases fuel with
    | zero => simp at hf
    | succ fuel =>
      simp only [List.map_cons, List.flatten_cons] at hu
      obtain ⟨c1, h1, h2, h3⟩ := readRecord_ok bo h r (hok r (by simp)) _ hu
      obtain ⟨c2, h4, h5⟩ := ih (fun x hx => hok x (by simp [hx])) c1 _ h2 h3 fuel (by simp at hf; omega)
      exact ⟨c2, by simp [readAll, readRecordFromRing, h1, h4], h5⟩

/-- A sample record cut off after its header. -/
theorem readRecord_cut (bo : ByteOrder) {c : Cursor} {k p l : Nat} (h : At c k p l) (m s : BitVec 16) (raw : Bytes) (hr : raw.length < 2 ^ 32)
    (cut : Bytes) (h8 : 8 ≤ cut.length) (hlt : cut.length < ((KRec.sample m s raw).encode bo).length)
    (hpre : ((KRec.sample m s raw).encode bo).take cut.length = cut) (hu : unread c p l = cut) :
    ∃ c' : Cursor, (readRecord bo c = some (.error .sampleEOF, c') ∨ readRecord bo c = some (.error .sampleUnexpectedEOF, c')) ∧ At c' k l l := by
  obtain ⟨hl, r, hg⟩ := header_read bo 9#32 m s
  have hlen := unread_length c p l
  rw [hu] at hlen
  have hsplit : cut = (bo.put32 9#32 ++ bo.put16 m ++ bo.put16 s) ++ cut.drop 8 := by
    have : cut.take 8 = bo.put32 9#32 ++ bo.put16 m ++ bo.put16 s := by
      have e := congrArg (List.take 8) hpre
      rw [List.take_take, Nat.min_eq_left h8] at e
      rw [← e]
      simp only [KRec.encode]
      rw [List.append_assoc, List.take_left' hl]
    rw [← this, List.take_append_drop]
  obtain ⟨c1, f1, a1, u1⟩ := full_prefix h _ _ (hu.trans hsplit)
  rw [hl] at f1 a1 u1
  by_cases h12 : cut.length < 12
  · obtain ⟨c2, f2, a2⟩ := full_short a1 4 (by omega)
    refine ⟨c2, ?_, a2⟩
    simp only [readRecord, f1, hg, readRawSample, f2]
    by_cases he : p + 8 = l
    · left; simp [he, PERF_RECORD_LOST, PERF_RECORD_SAMPLE]
    · right; simp [he, PERF_RECORD_LOST, PERF_RECORD_SAMPLE]
  · have hd : cut.drop 8 = bo.put32 (BitVec.ofNat 32 raw.length) ++ cut.drop 12 := by
      have : (cut.drop 8).take 4 = bo.put32 (BitVec.ofNat 32 raw.length) := by
        have e := congrArg (fun x => (List.drop 8 x).take 4) hpre
        rw [List.drop_take, List.take_take, Nat.min_eq_left (by omega)] at e
        rw [← e]
        simp only [KRec.encode]
        rw [List.append_assoc, List.drop_left' hl, List.take_left' (put32_length ..)]
      rw [← this, show cut.drop 12 = (cut.drop 8).drop 4 by simp, List.take_append_drop]
    obtain ⟨c2, f2, a2, u2⟩ := full_prefix a1 _ _ (u1.trans hd)
    rw [put32_length] at f2 a2 u2
    obtain ⟨w, x, y, z, h1, h2⟩ := get32_put32 bo (BitVec.ofNat 32 raw.length)
    have hg2 : bo.get32l (bo.put32 (BitVec.ofNat 32 raw.length)) = some (BitVec.ofNat 32 raw.length, []) := by
      rw [h1]; simp [ByteOrder.get32l, h2]
    have hsz : (BitVec.ofNat 32 raw.length).toNat = raw.length := by
      rw [BitVec.toNat_ofNat]; exact Nat.mod_eq_of_lt hr
    have hel : ((KRec.sample m s raw).encode bo).length = 12 + raw.length := by
      simp [KRec.encode, put32_length, put16_length]; omega
    obtain ⟨c3, f3, a3⟩ := full_short a2 raw.length (by omega)
    refine ⟨c3, ?_, a3⟩
    simp only [readRecord, f1, hg, readRawSample, f2, hg2, hsz, f3]
    by_cases he : p + 8 + 4 = l
    · left; simp [he, PERF_RECORD_LOST, PERF_RECORD_SAMPLE]
    · right; simp [he, PERF_RECORD_LOST, PERF_RECORD_SAMPLE]

/-- C22: an overwritable ring holds whole records, newest first, and then possibly a sample record whose end has
been overwritten: exactly the whole ones are returned. -/
theorem readAll_overwritable (bo : ByteOrder) (rs : List KRec) (hok : ∀ r ∈ rs, r.ok) (m s : BitVec 16) (raw : Bytes) (hr : raw.length < 2 ^ 32)
    (cut : Bytes) (h8 : 8 ≤ cut.length) (hlt : cut.length < ((KRec.sample m s raw).encode bo).length)
    (hpre : ((KRec.sample m s raw).encode bo).take cut.length = cut) (c : Cursor) (k p l : Nat) (h : At c k p l)
    (hu : unread c p l = (rs.map (KRec.encode bo)).flatten ++ cut) (fuel : Nat) (hf : rs.length < fuel) :
    ∃ c' : Cursor, readAll bo true fuel c = some (rs.map KRec.toRecord, .eor, c') ∧ At c' k l l := by
  induction rs generalizing c p fuel with
  | nil =>
    obtain ⟨c', h1, h2⟩ := readRecord_cut bo h m s raw hr cut h8 hlt hpre (by simpa using hu)
    cases fuel with
    | zero => omega
    | succ fuel =>
      refine ⟨c', ?_, h2⟩
      rcases h1 with h1 | h1 <;> simp [readAll, readRecordFromRing, h1]
  | cons r rs ih =>
    cases fuel with
    | zero => simp at hf
    | succ fuel =>
      simp only [List.map_cons, List.flatten_cons, List.append_assoc] at hu
      obtain ⟨c1, h1, h2, h3⟩ := readRecord_ok bo h r (hok r (by simp)) _ hu
      obtain ⟨c2, h4, h5⟩ := ih (fun x hx => hok x (by simp [hx])) c1 _ h2 h3 fuel (by simp at hf; omega)
      exact ⟨c2, by simp [readAll, readRecordFromRing, h1, h4], h5⟩

/-- C22: in a ring the kernel does not overwrite, a record that is cut off is reported as an error rather than
being mistaken for the end of the ring. -/
theorem readAll_forward_cut (bo : ByteOrder) (rs : List KRec) (hok : ∀ r ∈ rs, r.ok) (m s : BitVec 16) (raw : Bytes) (hr : raw.length < 2 ^ 32)
    (cut : Bytes) (h8 : 8 ≤ cut.length) (hlt : cut.length < ((KRec.sample m s raw).encode bo).length)
    (hpre : ((KRec.sample m s raw).encode bo).take cut.length = cut) (c : Cursor) (k p l : Nat) (h : At c k p l)
    (hu : unread c p l = (rs.map (KRec.encode bo)).flatten ++ cut) (fuel : Nat) (hf : rs.length < fuel) :
    ∃ (c' : Cursor) (e : _), readAll bo false fuel c = some (rs.map KRec.toRecord, e, c') ∧ e ≠ .eor ∧ At c' k l l := by
  induction rs generalizing c p fuel with
  | nil =>
    obtain ⟨c', h1, h2⟩ := readRecord_cut bo h m s raw hr cut h8 hlt hpre (by simpa using hu)
    cases fuel with
    | zero => omega
    | succ fuel =>
      rcases h1 with h1 | h1
      · exact ⟨c', _, by simp [readAll, readRecordFromRing, h1]; rfl, by simp, h2⟩
      · exact ⟨c', _, by simp [readAll, readRecordFromRing, h1]; rfl, by simp, h2⟩
  | cons r rs ih =>
    cases fuel with
    | zero => simp at hf
    | succ fuel =>
      simp only [List.map_cons, List.flatten_cons, List.append_assoc] at hu
      obtain ⟨c1, h1, h2, h3⟩ := readRecord_ok bo h r (hok r (by simp)) _ hu
      obtain ⟨c2, e, h4, h6, h5⟩ := ih (fun x hx => hok x (by simp [hx])) c1 _ h2 h3 fuel (by simp at hf; omega)
      exact ⟨c2, e, by simp [readAll, readRecordFromRing, h1, h4], h6, h5⟩

/-- C22: `loadHead` of an overwritable ring makes exactly the newest bytes readable: those written since the
previous call, at most one ring size. `h0` is the previous head, `h1 ≤ h0` the current one. -/
theorem loadHeadReverse_spec (k : Nat) (hk : k < 63) (ring : Nat → Byte) (h0 h1 : Nat) (hle : h1 ≤ h0) (hd : h0 - h1 < 2 ^ 64) :
    (loadHeadReverse (2 ^ k) ring (BitVec.ofNat 64 h0) (BitVec.ofNat 64 h1)).1 = BitVec.ofNat 64 h1 ∧
    At (loadHeadReverse (2 ^ k) ring (BitVec.ofNat 64 h0) (BitVec.ofNat 64 h1)).2 k h1 (min h0 (h1 + 2 ^ k)) := by
  have h2 : 2 ^ k < 2 ^ 63 := Nat.pow_lt_pow_right (by omega) hk
  have e : (BitVec.ofNat 64 h0 - BitVec.ofNat 64 h1).toNat = h0 - h1 := by
    rw [BitVec.toNat_sub, BitVec.toNat_ofNat, BitVec.toNat_ofNat]; omega
  have e2 : (BitVec.ofNat 64 (2 ^ k)).toNat = 2 ^ k := by rw [BitVec.toNat_ofNat]; exact Nat.mod_eq_of_lt (by omega)
  refine ⟨rfl, rfl, hk, rfl, ?_, by omega, by omega⟩
  simp only [loadHeadReverse, gt_iff_lt, BitVec.lt_def, e, e2]
  split
  · rw [Nat.min_eq_right (by omega), BitVec.ofNat_add]
  · rw [Nat.min_eq_left (by omega)]

/-- C22: `Remaining` is the number of unread bytes, provided the ring is not exactly full (the kernel always
leaves a gap, kernel/events/ring_buffer.c `ring_buffer_has_space`). -/
theorem remaining_spec {c : Cursor} {k p l : Nat} (h : At c k p l) (hgap : l - p < 2 ^ k) : c.remaining.toNat = l - p := by
  have h2 := h.pow_lt
  have h3 := h.le
  have e : (c.limit - c.pos).toNat = l - p := by
    rw [h.limit, h.pos, BitVec.toNat_sub, BitVec.toNat_ofNat, BitVec.toNat_ofNat]; omega
  rw [Cursor.remaining, Cursor.mask, h.cap, BitVec.toNat_and, e, BitVec.toNat_ofNat, Nat.mod_eq_of_lt (a := 2 ^ k - 1) (by omega),
    Nat.and_two_pow_sub_one_eq_mod, Nat.mod_eq_of_lt hgap]

/-- Finding: after an event of unknown type the reader has skipped only its 8 byte header, so the body is then
parsed as if it were a record. Here a 16 byte unknown event whose body looks like a sample header is followed
by a real sample: the second read does not return it. -/
theorem unknown_event_desynchronises : ∃ (c : Cursor) (c1 c2 : Cursor) (e : Err),
    unread c 0 24 = ByteOrder.little.put32 1#32 ++ [0, 0, 16, 0] ++ [5, 0, 0, 0, 0, 0, 0, 0] ++ ByteOrder.little.put32 9#32 ++ [0, 0, 12, 0] ∧
    readRecord .little c = some (.error (.unknown 1#32), c1) ∧ readRecord .little c1 = some (.error e, c2) ∧ e = .unknown 5#32 :=
  ⟨⟨0, 24, 64, fun i => ([1, 0, 0, 0, 0, 0, 16, 0, 5, 0, 0, 0, 0, 0, 0, 0, 9, 0, 0, 0, 0, 0, 12, 0] : Bytes).getD i 0⟩, _, _, _,
    by decide +kernel, rfl, rfl, by decide +kernel⟩

/-- Concrete: two records wrapping around a 32 byte ring. -/
example : (readAll .little false 3 ⟨24, 52, 32, fun i => ((KRec.sample 0 14 [1, 2]).encode .little ++
      (KRec.sample 0 16 [3, 4]).encode .little).getD ((i + 8) % 32) 0⟩).map (fun x => (x.1, x.2.1)) =
    some ([.sample [1, 2], .sample [3, 4]], .eor) := by decide +kernel

end Ebpf.Perf
