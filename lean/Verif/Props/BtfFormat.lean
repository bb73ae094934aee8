import Verif.Spec.BtfFormat
/-! # C118: printing BTF types -/
namespace Ebpf.BtfFormat
open Ebpf.Btf Ebpf.VerifierText Ebpf.BtfFormat.Spec
variable {R : Type}

theorem label_eq (e : Env R) (plus : Bool) (t : R) (n : Node R) : head e plus t n = label e plus t n := by
  unfold head label
  by_cases h : n.name = [] <;> simp [h]

theorem sprintRest_eq (l : List Bytes) : ∀ s, (lit " ").intercalate (s :: l) = s ++ sprintRest l := by
  induction l with
  | nil => intro s; simp [sprintRest, List.intercalate]
  | cons x l ih => intro s; rw [List.intercalate_cons_cons, ih]; simp [sprintRest]

theorem sprintStrings_eq (l : List Bytes) : sprintStrings l = lit "[" ++ (lit " ").intercalate l ++ lit "]" := by
  cases l with
  | nil => simp [sprintStrings, List.intercalate]; rfl
  | cons s l => rw [sprintRest_eq]; simp [sprintStrings]

theorem memberNamesFrom_eq (max : Nat) (ms : List (Member R)) : ∀ i, i ≤ max →
    memberNamesFrom max i ms = (((ms.take (max - i)).zipIdx i).map fun x => fieldName x.2 x.1) ++ (if ms.length > max - i then [lit "..."] else []) := by
  induction ms with
  | nil => intro i hi; simp [memberNamesFrom]
  | cons m ms ih =>
    intro i hi
    unfold memberNamesFrom
    by_cases h : i ≥ max
    · have : max - i = 0 := by omega
      rw [if_pos h, this]
      simp
    · obtain ⟨k, hk⟩ : ∃ k, max - i = k + 1 := ⟨max - i - 1, by omega⟩
      have hk' : max - (i + 1) = k := by omega
      rw [if_neg h, ih (i + 1) (by omega), hk, hk']
      simp [fieldName]

theorem memberNames_eq (ms : List (Member R)) (w : Nat) : sprintStrings (memberNames ms w) = fieldNames w ms := by
  rw [sprintStrings_eq, memberNames, memberNamesFrom_eq _ _ 0 (by omega)]
  rfl

theorem details_eq (f : R → Bytes) (w : Nat) (n : Node R) :
    (match extra w n with
      | [] => []
      | x :: l => lit "[" ++ items f (x :: l) false ++ lit "]") = details f w n := by
  cases n <;> simp [extra, items, details, memberNames_eq, lit] <;> try rfl
  rename_i t v i
  by_cases h : v = []
  · simp [h, gap]
  · by_cases h' : v.getLast? = some 61#8 <;> simp [h, h', gap, lit]

theorem formatV_eq (e : Env R) (g : Graph R) (plus : Bool) (w : Nat) : ∀ n d t, n + d = w + 1 → formatV e g plus w d t = text e g plus w n t := by
  intro n
  induction n with
  | zero =>
    intro d t h
    rw [formatV, dif_pos (by omega), label_eq]
    simp [text]
  | succ n ih =>
    intro d t h
    rw [formatV, dif_neg (by omega), label_eq, text]
    refine (congrArg (label e plus t (g t) ++ ·) (details_eq (fun r => formatV e g plus w (d + 1) r) w (g t))).trans ?_
    congr 2
    funext r
    exact ih (d + 1) r (by omega)

/-- **C118.** With `%v` and a width `w` (0 if none is given) a type is printed with details of `w + 1` levels, whatever cycles there are; with `%s` its label only; another verb
isn't recognized. -/
theorem format_exact (e : Env R) (g : Graph R) (plus : Bool) (w : Option Nat) (t : R) :
    format e g plus w (lit "v") t = text e g plus (w.getD 0) (w.getD 0 + 1) t ∧
    format e g plus w (lit "s") t = label e plus t (g t) ∧
    ∀ verb, verb ≠ lit "v" → verb ≠ lit "s" → format e g plus w verb t = lit "{UNRECOGNIZED: " ++ verb ++ lit "}" := by
  refine ⟨?_, ?_, fun verb h1 h2 => ?_⟩
  · rw [format, if_neg (by simp), if_neg (by decide)]
    exact formatV_eq e g plus _ _ 0 t (by omega)
  · rw [format, if_neg (by simp), if_pos rfl, label_eq]
  · rw [format, if_pos ⟨h1, h2⟩]

theorem details_congr {f f' : R → Bytes} {n : Node R} (w : Nat) (h : ∀ s ∈ subtypes n, f s = f' s) : details f w n = details f' w n := by
  cases n <;> simp_all [subtypes, details]

/-- **C118.** What is printed depends on nothing but the types up to the level of the width, and on what the fields, names and kinds of those are: graphs that agree on these print the same. -/
theorem format_local (e : Env R) (g g' : Graph R) (plus : Bool) (w : Nat) : ∀ (n : Nat) (t : R), (∀ k ≤ n, ∀ r, Steps g k t r → g r = g' r) →
    text e g plus w n t = text e g' plus w n t := by
  intro n
  induction n with
  | zero => intro t h; simp only [text]; rw [h 0 (by omega) t (.here t)]
  | succ n ih =>
    intro t h
    simp only [text]
    rw [← h 0 (by omega) t (.here t)]
    rw [details_congr w fun s hs => ih s fun k hk r hr => h (k + 1) (by omega) r (.step k t s r hs hr)]

/-- **C118.** If no type is so far away then nothing is left out: more levels would show the same. -/
theorem format_complete (e : Env R) (g : Graph R) (plus : Bool) (w : Nat) : ∀ (n : Nat) (t : R), (∀ r, ¬ Steps g n t r) → ∀ k, text e g plus w (n + k) t = text e g plus w n t := by
  intro n
  induction n with
  | zero => intro t h; exact absurd (.here t) (h t)
  | succ n ih =>
    intro t h k
    rw [Nat.add_right_comm]
    simp only [text]
    rw [details_congr w fun s hs => ih s (fun r hr => h r (.step n t s r hs hr)) k]

theorem details_infix {f : R → Bytes} {n : Node R} {s : R} (w : Nat) (h : s ∈ subtypes n) : f s <:+: details f w n := by
  have hd : ∀ b : Bytes, f s <:+: f s ++ b := fun b => (List.prefix_append _ _).isInfix
  have step : ∀ (a : Bytes) {b : Bytes}, f s <:+: b → f s <:+: a ++ b := fun a _ h => h.trans (List.suffix_append _ _).isInfix
  cases n <;> simp only [subtypes, List.mem_cons, List.not_mem_nil, or_false] at h
  case array => rcases h with h | h <;> subst h <;> simp only [details, List.append_assoc] <;> repeat (first | exact hd _ | refine step _ ?_)
  all_goals subst h; simp only [details, List.append_assoc]; repeat (first | exact hd _ | refine step _ ?_)

/-- **C118.** All types of these levels are shown. -/
theorem format_shows (e : Env R) (g : Graph R) (plus : Bool) (w : Nat) : ∀ (k n : Nat) (t r : R), Steps g k t r → k ≤ n → label e plus r (g r) <:+: text e g plus w n t := by
  intro k
  induction k with
  | zero =>
    intro n t r h hk
    cases h
    cases n with
    | zero => exact List.infix_refl _
    | succ n => exact (List.prefix_append _ _).isInfix
  | succ k ih =>
    intro n t r h hk
    cases h with
    | step _ _ s _ hs hr =>
      cases n with
      | zero => omega
      | succ n => exact ((ih n s r hr (by omega)).trans (details_infix w hs)).trans (List.suffix_append _ _).isInfix

theorem details_length (f : R → Bytes) (w : Nat) (n : Node R) (m : Nat) (h : ∀ s, (f s).length ≤ m) :
    (details f w n).length ≤ (details (fun _ : R => []) w n).length + 2 * m := by
  cases n <;> simp only [details, List.length_append, List.length_nil] <;> first | omega | skip
  case array i t _ => have := h i; have := h t; omega
  all_goals (have := h ‹R›; omega)

/-- **C118.** A type doesn't fill the memory: if the text of one level is at most `b` long for each type, then that of the whole is at most `b * (2 ^ (n + 1) - 1)` long, also if types refer to
themselves. -/
theorem format_bounded (e : Env R) (g : Graph R) (plus : Bool) (w b : Nat)
    (h : ∀ t, (label e plus t (g t) ++ details (fun _ => []) w (g t)).length ≤ b) : ∀ (n : Nat) (t : R), (text e g plus w n t).length ≤ b * (2 ^ (n + 1) - 1) := by
  intro n
  induction n with
  | zero =>
    intro t
    have := h t
    simp only [text, List.length_append] at *
    omega
  | succ n ih =>
    intro t
    have h1 := h t
    have h2 := details_length _ w (g t) _ ih
    have h3 : b * (2 ^ (n + 1 + 1) - 1) = b + 2 * (b * (2 ^ (n + 1) - 1)) := by
      have : 2 ^ (n + 1 + 1) - 1 = 1 + 2 * (2 ^ (n + 1) - 1) := by
        have : 0 < 2 ^ (n + 1) := Nat.two_pow_pos _
        rw [Nat.pow_succ 2 (n + 1)]; omega
      rw [this, Nat.mul_add, Nat.mul_one, Nat.mul_left_comm]
    simp only [text, List.length_append] at *
    omega

/-- A list: a pointer to a struct isn't followed into the struct's members, but a typedef of a pointer to itself is a cycle. -/
def exG : Graph Nat := fun t => match t with
  | 0 => .typedef (lit "t") 1 []
  | 1 => .ptr 0
  | 2 => .array 2 2 7#32
  | 3 => .declTag 4 [] 1
  | 4 => .int (lit "int") 4#32 1#8
  | 5 => .struct (lit "s") 8#32 [⟨lit "a", 4, 0#32, 0#32, []⟩, ⟨[], 4, 32#32, 0#32, []⟩] []
  | _ => .void

/-- Names in plain quotes. -/
def exE : Env Nat := ⟨fun n => lit "\"" ++ n ++ lit "\"", fun t => itoa t⟩

example : format exE exG false none (lit "v") 0 = lit "Typedef:\"t\"[Pointer]" := by
  rw [(format_exact _ _ _ _ _).1]; rfl
example : format exE exG false (some 2) (lit "v") 0 = lit "Typedef:\"t\"[Pointer[target=Typedef:\"t\"[Pointer]]]" := by
  rw [(format_exact _ _ _ _ _).1]; rfl
theorem itoa_digit (n : Nat) (h : n < 10) : itoa n = [BitVec.ofNat 8 (48 + n)] := by rw [itoa, if_pos h]

example : format exE exG false none (lit "v") 2 = lit "Array[index=Array type=Array n=7]" := by
  rw [(format_exact _ _ _ _ _).1]
  have : text exE exG false 0 1 2 = lit "Array[index=Array type=Array n=" ++ itoa 7 ++ lit "]" := rfl
  exact this.trans (by rw [itoa_digit 7 (by decide)]; rfl)
example : format exE exG true (some 1) (lit "v") 3 = lit "declTag:3[type=Int:\"int\":4[signed size=4] value=index=1]" := by
  rw [(format_exact _ _ _ _ _).1]
  have h1 : itoaInt 1 = [49#8] := (show itoaInt 1 = itoa 1 from rfl).trans (itoa_digit 1 (by decide))
  simp only [Option.getD_some, Nat.reduceAdd, text, details, label, exG, exE, h1, show (4#32).toNat = 4 from rfl, itoa_digit 4 (by decide), itoa_digit 3 (by decide)]
  rfl
example : format exE exG false (some 1) (lit "v") 5 = lit "Struct:\"s\"[fields=2 fieldNames=[a ...]]" := by
  rw [(format_exact _ _ _ _ _).1]
  simp only [Option.getD_some, Nat.reduceAdd, text, details, label, exG, exE, List.length_cons, List.length_nil, itoa_digit 2 (by decide)]
  rfl
/-- The hypothesis of `format_complete` is met by the tag (nothing is two steps away), and by no type of the cycle. -/
example : ∀ r, ¬ Steps exG 2 3 r := by
  intro r h
  cases h with
  | step _ _ s _ hs h =>
    simp only [exG, subtypes, List.mem_cons, List.not_mem_nil, or_false] at hs
    subst hs
    cases h with
    | step _ _ s _ hs h => simp [exG, subtypes] at hs
example : Steps exG 2 0 0 := .step _ _ 1 _ (by simp [exG, subtypes]) (.step _ _ 0 _ (by simp [exG, subtypes]) (.here 0))

end Ebpf.BtfFormat
