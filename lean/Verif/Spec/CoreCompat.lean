import Verif.Spec.BtfTypes
/-!
# Specification: CO-RE type compatibility and type matching

Both are defined coinductively: two types are related if *some* relation containing them is consistent with the rules of the
comments taken from libbpf. Nothing is said about traversal order, visited sets or termination.
-/
namespace Ebpf.BtfSpec
open Ebpf.Btf
variable {R : Type}

/-- `u` is `a` without (at most 32) qualifiers and typedefs. -/
def Underlies (g : Graph R) (a u : R) : Prop := ∃ d, d ≤ 32 ∧ Steps (Peel g) d a u ∧ ∀ v, ¬ Peel g u v

/-- The rules of `bpf_core_types_are_compat`, with `S` for the types referred to: kinds match; names, sizes, signedness, members and
array lengths are ignored; pointers, arrays and functions refer to related types. -/
inductive SameShape (S : R → R → Prop) : Node R → Node R → Prop where
  | void : SameShape S .void .void
  | int {n s e n' s' e'} : SameShape S (.int n s e) (.int n' s' e')
  | struct {n s m t n' s' m' t'} : SameShape S (.struct n s m t) (.struct n' s' m' t')
  | union {n s m t n' s' m' t'} : SameShape S (.union n s m t) (.union n' s' m' t')
  | enum {n s sg v n' s' sg' v'} : SameShape S (.enum n s sg v) (.enum n' s' sg' v')
  | fwd {n k n' k'} : SameShape S (.fwd n k) (.fwd n' k')
  | ptr {a b} : S a b → SameShape S (.ptr a) (.ptr b)
  | array {i a n j b m} : S i j → S a b → SameShape S (.array i a n) (.array j b m)
  | funcProto {r ps r' ps'} : S r r' → ps.length = ps'.length →
      (∀ (i : Nat) (p p' : FuncParam R), ps[i]? = some p → ps'[i]? = some p' → S p.type p'.type) → SameShape S (.funcProto r ps) (.funcProto r' ps')

/-- `S` respects the rules of compatibility. -/
def Consistent (g : Graph R) (S : R → R → Prop) : Prop :=
  ∀ a b, S a b → ∃ u v, Underlies g a u ∧ Underlies g b v ∧ SameShape S (g u) (g v)

/-- Two types are compatible. -/
def Compatible (g : Graph R) (a b : R) : Prop := ∃ S, Consistent g S ∧ S a b

/-- Names agree up to flavour, or one of them is missing. -/
def NamesAgree (a b : Bytes) : Prop :=
  a = [] ∨ b = [] ∨ ∃ e, (Flavoured a e ∨ ((∀ x, ¬ Flavoured a x) ∧ e = a)) ∧ (Flavoured b e ∨ ((∀ x, ¬ Flavoured b x) ∧ e = b))

/-- `f` is a forward declaration of the kind of `s` (names are not compared). -/
def FwdOf (g : Graph R) (f s : R) : Prop :=
  ∃ u v n k, Underlies g f u ∧ Underlies g s v ∧ g u = .fwd n k ∧
    ((k = 0 ∧ ∃ n sz ms ts, g v = .struct n sz ms ts) ∨ (k = 1 ∧ ∃ n sz ms ts, g v = .union n sz ms ts))

/-- The rules of `__bpf_core_types_match`. -/
inductive MatchShape (g : Graph R) (S : R → R → Prop) : Node R → Node R → Prop where
  | void : MatchShape g S .void .void
  | fwd {n k n'} : NamesAgree n n' → MatchShape g S (.fwd n k) (.fwd n' k)
  | int {n s e n' e'} : NamesAgree n n' → (e = 1 ↔ e' = 1) → MatchShape g S (.int n s e) (.int n' s e')
  | enum {n s sg vs n' sg' vs'} : NamesAgree n n' → vs.length ≤ vs'.length → (∀ v ∈ vs, ∃ w ∈ vs', NamesAgree v.name w.name) →
      MatchShape g S (.enum n s sg vs) (.enum n' s sg' vs')
  | struct {n s ms ts n' s' ms' ts'} : NamesAgree n n' → (∀ m ∈ ms, ∃ m' ∈ ms', m.name = m'.name ∧ S m.type m'.type) →
      MatchShape g S (.struct n s ms ts) (.struct n' s' ms' ts')
  | union {n s ms ts n' s' ms' ts'} : NamesAgree n n' → (∀ m ∈ ms, ∃ m' ∈ ms', m.name = m'.name ∧ S m.type m'.type) →
      MatchShape g S (.union n s ms ts) (.union n' s' ms' ts')
  | ptr {a b} : FwdOf g a b ∨ FwdOf g b a ∨ S a b → MatchShape g S (.ptr a) (.ptr b)
  | array {i a n j b} : S a b → MatchShape g S (.array i a n) (.array j b n)
  | funcProto {r ps r' ps'} : S r r' → ps.length = ps'.length →
      (∀ (i : Nat) (p p' : FuncParam R), ps[i]? = some p → ps'[i]? = some p' → S p.type p'.type) → MatchShape g S (.funcProto r ps) (.funcProto r' ps')

/-- `S` respects the rules of matching. -/
def MatchConsistent (g : Graph R) (S : R → R → Prop) : Prop :=
  ∀ a b, S a b → ∃ u v, Underlies g a u ∧ Underlies g b v ∧ MatchShape g S (g u) (g v)

/-- Two types match. -/
def Matches (g : Graph R) (a b : R) : Prop := ∃ S, MatchConsistent g S ∧ S a b

/-- No struct or union has two members of the same name (in particular at most one anonymous member). -/
def UniqueMembers (g : Graph R) : Prop := ∀ x ms, (g x).members? = some ms → (ms.map (·.name)).Nodup

end Ebpf.BtfSpec
