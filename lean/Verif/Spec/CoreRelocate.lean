import Verif.Spec.Core
import Verif.Model.CoreRelocate
/-! # Specification of C95: relocating a program -/
namespace Ebpf.CoreSpec
open Ebpf.Asm Ebpf.Core Ebpf.Btf

section
variable {R : Type}

/-- A question about the target: does a field, a type or an enum value exist. -/
def AsksExistence (k : Kind) : Prop := k = .fieldExists ∨ k = .typeExists ∨ k = .enumvalExists ∨ k = .typeMatches

/-- `fs` are the answers to `relos` (all about the same local type): either those of one of the candidates, where no other candidate
satisfies more of them and candidates that satisfy as many give the same values; or no candidate satisfies any, then "does it exist" is answered
with no and everything else is poisoned. -/
def Answers {E : Type} (compute : Relo R → R → Except E Fixup) (relos : List (Relo R)) (cands : List R) (fs : List Fixup) : Prop :=
  (∀ t ∈ cands, ∃ ft, Fixes compute relos t ft) ∧
  (((∃ t ∈ cands, Fixes compute relos t fs) ∧ badness fs < relos.length ∧
      ∀ t ∈ cands, ∀ ft, Fixes compute relos t ft → badness fs ≤ badness ft ∧ (badness ft = badness fs → values ft = values fs)) ∨
   ((∀ t ∈ cands, ∀ ft, Fixes compute relos t ft → badness ft = relos.length) ∧ fs.length = relos.length ∧
      ∀ (i : Nat) r f, relos[i]? = some r → fs[i]? = some f →
        (AsksExistence r.kind → f = ⟨r.kind, 1, 0, false, false⟩) ∧ (¬ AsksExistence r.kind → f = ⟨r.kind, 0, 0, true, false⟩)))

/-- The relocations about local type `t`, except those for its local ID. -/
def about [DecidableEq R] (t : R) (relos : List (Relo R)) : List (Relo R) := relos.filter fun r => r.kind ≠ .typeIDLocal ∧ r.typ = t

/-- What they were answered with. -/
def answersFor [DecidableEq R] (t : R) (relos : List (Relo R)) (fs : List Fixup) : List Fixup :=
  ((relos.zip fs).filter fun p => p.1.kind ≠ .typeIDLocal ∧ p.1.typ = t).map (·.2)

/-- The ID of a type in what a builder marshals: its position, or 0 for Void. -/
def HasID (g : Graph R) (b : TypeBuilder R) (t : R) (id : BitVec 32) : Prop :=
  (g t = .void ∧ id = 0) ∨ (g t ≠ .void ∧ id ≠ 0 ∧ b.types[id.toNat - 1]? = some t)

/-- What a program is relocated against: the override, or the kernel and all of its modules; and the extra targets. The first one, in which type IDs are resolved, is the
override or the kernel. -/
def AgainstAll {E : Type} (c : KernelTypes R E) (kernelOverride : Option (Target R)) (extra targets : List (Target R)) : Prop :=
  (∃ o, kernelOverride = some o ∧ targets = o :: extra) ∨
  (kernelOverride = none ∧ ∃ k ms mods, c.kernel = .ok k ∧ (c.modules = .ok (some ms) ∨ (c.modules = .ok none ∧ ms = [])) ∧
    ms.map c.module_ = mods.map .ok ∧ targets = k :: (mods ++ extra))

/-- `j` is `i` after fix-up `f`: poisoned, or exactly the operand replaced, which held the value the compiler put there (unless the fix-up says
not to look). -/
def FixedUp (f : Fixup) (i j : CIns) : Prop :=
  (f.poison = true ∧ Illegal j.p.ins ∧ j.p.ins.width = i.p.ins.width) ∨
  (f.poison = false ∧ ∃ o, operand i.p.ins = some o ∧ j = setOperand o f.target i ∧
    (f.skipLocalValidation = true ∨ (o = .offset ∧ i.p.ins.off = f.loc.setWidth 16) ∨ (o = .imm ∧ i.p.ins.cons = f.loc)))
end

end Ebpf.CoreSpec
